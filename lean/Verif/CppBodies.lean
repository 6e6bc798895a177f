import Verif.CppWorld

/-!
# The functions of the generated C++ file
-/

namespace Mapry.CppCode

set_option linter.unusedSimpArgs false

open Mapry.TypeGraph Mapry.Naming Mapry.ParseSchema
open Mapry.PyCode (Facts idOf idOf_eq allNames defNames attrs)
open Mapry.GoCode (ok_bind mapM_mem mapM_mem' mapM_cons Resolves needs_ty referencesOf)

variable {g : Graph} {cpp : Cpp} {W : World}

/-! ## The declared functions -/

/-- The functions with a fixed text and the functions of the C library -/
def fixedSigs : List Sig :=
  globals ++ [messageSig, durationFromSig, valueTypeSig, tmSig, durationToSig]

/-- A generated function which parses or serializes -/
def Generated (s : Sig) : Prop :=
  (s.params.head? = some .json ∧ s.result = .void) ∨ ∃ X, s.params = [.struct X] ∧ s.result = .json

theorem parseDecl_inv {o : Owner} {n : Str} {s : Sig} (h : parseDecl g o n = .ok s) :
    ∃ rs, asComposite n = .ok (idOf n) ∧ s = ⟨lower n ++ c!"_from", (parseParams rs (idOf n)).map (·.2), .void⟩ ∧
      ∃ refs, referencesOf g o = .ok refs ∧ refs.mapM (registryParam g) = .ok rs := by
  unfold parseDecl at h
  obtain ⟨refs, hrefs, h⟩ := ok_bind h
  obtain ⟨f, hf, h⟩ := ok_bind h
  obtain ⟨rs, hrs, h⟩ := ok_bind h
  obtain ⟨x, hx, h⟩ := ok_bind h
  cases h
  obtain ⟨rfl, _⟩ := PyCode.asVariable_eq hf
  obtain rfl := idOf_eq hx
  exact ⟨rs, hx, rfl, refs, hrefs, hrs⟩

theorem serializeDecl_inv {n : Str} {s : Sig} (h : serializeDecl n = .ok s) :
    asComposite n = .ok (idOf n) ∧ s = ⟨c!"serialize_" ++ lower n, [.struct (idOf n)], .json⟩ := by
  unfold serializeDecl at h
  obtain ⟨f, hf, h⟩ := ok_bind h
  obtain ⟨x, hx, h⟩ := ok_bind h
  cases h
  obtain ⟨rfl, _⟩ := PyCode.asVariable_eq hf
  obtain rfl := idOf_eq hx
  exact ⟨hx, rfl⟩

/-- The declaration of the function which parses the graph -/
def graphSig (g : Graph) : Sig := ⟨lower g.name ++ c!"_from", (parseParams [] (idOf g.name)).map (·.2), .void⟩

theorem jsonHeader_inv {sigs : List Sig} (h : jsonHeader g cpp = .ok sigs) :
    ∃ es cs ss, g.embeds.mapM (fun e => parseDecl g (.embed e.name) e.name) = .ok es ∧
      g.classes.mapM (fun c => parseDecl g (.cls c.name) c.name) = .ok cs ∧
      (g.name :: g.classes.map (·.name) ++ g.embeds.map (·.name)).mapM serializeDecl = .ok ss ∧
      sigs = graphSig g :: es ++ cs ++ ss := by
  unfold jsonHeader at h
  obtain ⟨_, _, h⟩ := ok_bind h
  obtain ⟨f, hf, h⟩ := ok_bind h
  obtain ⟨x, hx, h⟩ := ok_bind h
  obtain ⟨es, hes, h⟩ := ok_bind h
  obtain ⟨cs, hcs, h⟩ := ok_bind h
  obtain ⟨ss, hss, h⟩ := ok_bind h
  cases h
  obtain ⟨rfl, _⟩ := PyCode.asVariable_eq hf
  obtain rfl := idOf_eq hx
  exact ⟨es, cs, ss, hes, hcs, hss, rfl⟩

theorem generated_parse {f X : Str} {rs : List (Var × CTy)} :
    Generated ⟨f, (parseParams rs X).map (·.2), .void⟩ := .inl ⟨rfl, rfl⟩

theorem generated_sigs {sigs : List Sig} (h : jsonHeader g cpp = .ok sigs) : ∀ s ∈ sigs, Generated s := by
  obtain ⟨es, cs, ss, hes, hcs, hss, rfl⟩ := jsonHeader_inv h
  intro s hs
  simp only [List.mem_append, List.mem_cons] at hs
  rcases hs with ((rfl | hs) | hs) | hs
  · exact generated_parse
  · obtain ⟨e, _, h1⟩ := mapM_mem hes hs
    obtain ⟨rs, _, rfl, _⟩ := parseDecl_inv h1
    exact generated_parse
  · obtain ⟨e, _, h1⟩ := mapM_mem hcs hs
    obtain ⟨rs, _, rfl, _⟩ := parseDecl_inv h1
    exact generated_parse
  · obtain ⟨n, _, h1⟩ := mapM_mem hss hs
    obtain ⟨_, rfl⟩ := serializeDecl_inv h1
    exact .inr ⟨_, rfl, rfl⟩

theorem fixed_params : ∀ s ∈ fixedSigs, s.params.head? ≠ some .json ∧ ∀ X, s.params ≠ [.struct X] := by
  have h : ∀ s ∈ fixedSigs, s.params.head? ∈ [some CTy.text, some .string, some .valueType, some .tm, some .nanoseconds] := by decide
  intro s hs
  have := h s hs
  refine ⟨fun e => ?_, fun X e => ?_⟩ <;> rw [e] at this <;> simp at this

theorem fixed_functional : ∀ s ∈ fixedSigs, ∀ r ∈ fixedSigs, r.name = s.name → r.params = s.params → r = s := by decide

theorem sig_ext {s r : Sig} (h1 : r.name = s.name) (h2 : r.params = s.params) (h3 : r.result = s.result) : r = s := by
  cases s; cases r; cases h1; cases h2; cases h3; rfl

/-- Functions with the same name and parameters have the same result. -/
theorem functional {sigs : List Sig} (hg : ∀ s ∈ sigs, Generated s) {s r : Sig} (hs : s ∈ sigs ∨ s ∈ fixedSigs)
    (hr : r ∈ sigs ∨ r ∈ fixedSigs) (e : r.name = s.name) (e' : r.params = s.params) : r = s := by
  rcases hs with hs | hs <;> rcases hr with hr | hr
  · refine sig_ext e e' ?_
    rcases hg s hs with ⟨h1, h2⟩ | ⟨X, h1, h2⟩ <;> rcases hg r hr with ⟨h3, h4⟩ | ⟨Y, h3, h4⟩
    · rw [h2, h4]
    · rw [← e', h3] at h1; cases h1
    · rw [e', h1] at h3; cases h3
    · rw [h2, h4]
  · rcases hg s hs with ⟨h1, h2⟩ | ⟨X, h1, h2⟩
    · exact absurd (e' ▸ h1) (fixed_params r hr).1
    · exact absurd (e' ▸ h1) ((fixed_params r hr).2 X)
  · rcases hg r hr with ⟨h1, h2⟩ | ⟨X, h1, h2⟩
    · exact absurd (e' ▸ h1) (fixed_params s hs).1
    · exact absurd (e' ▸ h1) ((fixed_params s hs).2 X)
  · exact fixed_functional s hs r hr e e'

/-! ## What is known in a function -/

/-- What is declared in every function of the implementation -/
structure Inv (g : Graph) (H : TypesHeader) (sigs : List Sig) (W : World) : Prop where
  structs : W.structs = structsOf H
  only : ∀ s ∈ W.funcs, s ∈ sigs ∨ s ∈ fixedSigs
  declared : ∀ s ∈ sigs, s ∈ W.funcs
  fixed : ∀ s ∈ globals ++ [messageSig, valueTypeSig], s ∈ W.funcs
  duration : needs g .duration = true → durationFromSig ∈ W.funcs
  patterns : ∀ c ∈ g.classes, c.idPattern.isSome = true → lower c.name ++ c!"_re" ∈ W.patterns

/-- What is declared in the functions which serialize -/
structure InvTo (g : Graph) (date : Bool) (H : TypesHeader) (sigs : List Sig) (W : World) : Prop extends Inv g H sigs W where
  tm : date = false → (needs g .date || needs g .time || needs g .datetime) = true → tmSig ∈ W.funcs
  durationTo : needs g .duration = true → durationToSig ∈ W.funcs

theorem Inv.declare {H : TypesHeader} {sigs : List Sig} (h : Inv g H sigs W) {s : Sig} (hs : s ∈ sigs ∨ s ∈ fixedSigs) :
    Inv g H sigs (W.declare s) := by
  refine ⟨h.structs, ?_, fun r hr => List.mem_cons_of_mem _ (h.declared r hr), fun r hr => List.mem_cons_of_mem _ (h.fixed r hr),
    fun hd => List.mem_cons_of_mem _ (h.duration hd), h.patterns⟩
  intro r hr
  rcases List.mem_cons.1 hr with rfl | hr
  · exact hs
  · exact h.only r hr

theorem InvTo.declare {date : Bool} {H : TypesHeader} {sigs : List Sig} (h : InvTo g date H sigs W) {s : Sig}
    (hs : s ∈ sigs ∨ s ∈ fixedSigs) : InvTo g date H sigs (W.declare s) :=
  ⟨h.toInv.declare hs, fun h1 h2 => List.mem_cons_of_mem _ (h.tm h1 h2), fun h1 => List.mem_cons_of_mem _ (h.durationTo h1)⟩

/-- The setting of the lemmas below -/
structure Files (g : Graph) (cpp : Cpp) (date : Bool) (H : TypesHeader) (sigs : List Sig) : Prop where
  facts : Facts g
  ids : (structNames g).Nodup
  types : typesHeader g cpp = .ok H
  header : jsonHeader g cpp = .ok sigs
  date : dateH cpp = .ok date

section
variable {date : Bool} {H : TypesHeader} {sigs : List Sig} (F : Files g cpp date H sigs)
include F

theorem Files.knows (hW : Inv g H sigs W) {s : Sig} (hs : s ∈ W.funcs) : Knows W s :=
  ⟨hs, fun r hr e e' => functional (generated_sigs F.header) (hW.only s hs) (hW.only r hr) e e'⟩

theorem Files.declares (hW : Inv g H sigs W) : Declares W g := declares_of F.types hW.structs

theorem Files.struct (hW : Inv g H sigs W) {n : Str} (hn : n ∈ allNames g) : ∃ s ∈ W.structs, s.1 = idOf n :=
  (F.declares hW (idOf n)).2 ⟨n, hn, rfl⟩

theorem Files.basics (hW : Inv g H sigs W) : Basics W :=
  ⟨F.knows hW (hW.fixed _ (by decide)), F.knows hW (hW.fixed _ (by decide)), F.knows hW (hW.fixed _ (by decide)),
    F.knows hW (hW.fixed _ (by decide))⟩

theorem Files.scope (hW : Inv g H sigs W) : Scope W g cpp date := ⟨F.basics hW, F.declares hW, F.date⟩

theorem Files.parseEmbed (hW : Inv g H sigs W) {e : Embed} (he : e ∈ g.embeds) :
    ∃ s, parseDecl g (.embed e.name) e.name = .ok s ∧ Knows W s := by
  obtain ⟨es, cs, ss, hes, hcs, hss, rfl⟩ := jsonHeader_inv F.header
  obtain ⟨s, hs, h⟩ := mapM_mem' hes he
  exact ⟨s, h, F.knows hW (hW.declared s (by simp [hs]))⟩

theorem Files.parseClass (hW : Inv g H sigs W) {c : Class} (hc : c ∈ g.classes) :
    ∃ s, parseDecl g (.cls c.name) c.name = .ok s ∧ Knows W s := by
  obtain ⟨es, cs, ss, hes, hcs, hss, rfl⟩ := jsonHeader_inv F.header
  obtain ⟨s, hs, h⟩ := mapM_mem' hcs hc
  exact ⟨s, h, F.knows hW (hW.declared s (by simp [hs]))⟩

theorem Files.serialize (hW : Inv g H sigs W) {n : Str} (hn : n ∈ allNames g) :
    ∃ s, serializeDecl n = .ok s ∧ Knows W s := by
  obtain ⟨es, cs, ss, hes, hcs, hss, rfl⟩ := jsonHeader_inv F.header
  have hn' : n ∈ g.name :: g.classes.map (·.name) ++ g.embeds.map (·.name) := by
    simp only [allNames, defNames, List.mem_append, List.mem_singleton, List.mem_cons] at hn ⊢
    rcases hn with (h | h) | h | h
    · exact .inl (.inr h)
    · exact .inr h
    · exact .inl (.inl h)
    · cases h
  obtain ⟨s, hs, h⟩ := mapM_mem' hss hn'
  exact ⟨s, h, F.knows hW (hW.declared s (by simp [hs]))⟩

theorem Files.supplies (hW : Inv g H sigs W) {ty : Ty} : (∀ u ∈ parts ty, Occurs g u) → Supplies W g ty := by
  induction ty with
  | duration =>
    intro h
    exact F.knows hW (hW.duration ((needs_ty F.facts.named (by decide) (by decide) (by decide)).2 ⟨_, h _ (self_mem_parts _), rfl⟩))
  | embed n =>
    intro h
    obtain ⟨e, he, rfl⟩ := F.facts.resolves.2 n (h _ (self_mem_parts _))
    exact ⟨F.struct hW (by simp [allNames, defNames]; exact .inr (.inl ⟨e, he, rfl⟩)), F.parseEmbed hW he⟩
  | cls n =>
    intro h
    obtain ⟨c, hc, rfl⟩ := F.facts.resolves.1 n (h _ (self_mem_parts _))
    exact F.struct hW (by simp [allNames, defNames]; exact .inl ⟨c, hc, rfl⟩)
  | array y lo hi ih =>
    intro h
    exact ih fun u hu => h u (List.mem_cons_of_mem _ hu)
  | map y ih =>
    intro h
    exact ih fun u hu => h u (List.mem_cons_of_mem _ hu)
  | _ => intro _; trivial

theorem Files.writes (hW : InvTo g date H sigs W) {ty : Ty} : (∀ u ∈ parts ty, Occurs g u) → Writes W date ty := by
  have tm : ∀ {u : Ty} {q : Traverse.Tag}, Occurs g u → tyTag u = q → (q = .date ∨ q = .time ∨ q = .datetime) → date = false → Knows W tmSig := by
    intro u q hu hq h hd
    have : needs g q = true := (needs_ty F.facts.named (by rcases h with rfl | rfl | rfl <;> decide)
      (by rcases h with rfl | rfl | rfl <;> decide) (by rcases h with rfl | rfl | rfl <;> decide)).2 ⟨_, hu, hq⟩
    refine F.knows hW.toInv (hW.tm hd ?_)
    rcases h with rfl | rfl | rfl <;> simp [this]
  induction ty with
  | date f => intro h hd _; exact tm (h _ (self_mem_parts _)) rfl (by simp [tyTag]) hd
  | time f => intro h hd _; exact tm (h _ (self_mem_parts _)) rfl (by simp [tyTag]) hd
  | datetime f => intro h hd _; exact tm (h _ (self_mem_parts _)) rfl (by simp [tyTag]) hd
  | duration =>
    intro h
    exact F.knows hW.toInv (hW.durationTo ((needs_ty F.facts.named (by decide) (by decide) (by decide)).2 ⟨_, h _ (self_mem_parts _), rfl⟩))
  | embed n =>
    intro h
    obtain ⟨e, he, rfl⟩ := F.facts.resolves.2 n (h _ (self_mem_parts _))
    have hm : e.name ∈ allNames g := by simp [allNames, defNames]; exact .inr (.inl ⟨e, he, rfl⟩)
    exact ⟨F.struct hW.toInv hm, F.serialize hW.toInv hm⟩
  | cls n =>
    intro h
    obtain ⟨c, hc, rfl⟩ := F.facts.resolves.1 n (h _ (self_mem_parts _))
    exact ⟨F.struct hW.toInv (by simp [allNames, defNames]; exact .inl ⟨c, hc, rfl⟩),
      (found_class F.types hW.structs F.ids F.facts hc).more (c!"id", .string) (by simp)⟩
  | array y lo hi ih =>
    intro h
    exact ih fun u hu => h u (List.mem_cons_of_mem _ hu)
  | map y ih =>
    intro h
    exact ih fun u hu => h u (List.mem_cons_of_mem _ hu)
  | _ => intro _; trivial

end

theorem Found.members {X : Str} {ps : List Property} {extra : List (Str × CTy)} (h : Found W cpp X ps extra)
    (hs : ∀ p ∈ ps, Supplies W g p.ty) : Members W g cpp X ps := by
  intro p hp
  obtain ⟨t, ht, _, hl⟩ := h.raw p hp
  refine ⟨hs p hp, t, ht, ?_⟩
  rw [hl]
  split
  · exact .inr rfl
  · exact .inl rfl

theorem Found.serMembers {date : Bool} {X : Str} {ps : List Property} {extra : List (Str × CTy)} (h : Found W cpp X ps extra)
    (hs : ∀ p ∈ ps, Writes W date p.ty) : SerMembers W date cpp X ps := by
  intro p hp
  obtain ⟨t, ht, hr, _⟩ := h.raw p hp
  exact ⟨hs p hp, t, ht, hr⟩

/-- The parsing of the property is accepted: its name has no capitals, the literals fit and `date::parse` does not read
into an optional value. -/
def propOk (date : Bool) (p : Property) : Bool :=
  decide (lower p.name = p.name) && inRange p.ty && !(date && dated p.ty && p.optional)

theorem Found.fits {date : Bool} {X : Str} {ps : List Property} {extra : List (Str × CTy)} (h : Found W cpp X ps extra) :
    ps.all (propFits W X date) = ps.all (propOk date) := by
  rw [Bool.eq_iff_iff, List.all_eq_true, List.all_eq_true]
  have key : ∀ p ∈ ps, propFits W X date p = propOk date p := by
    intro p hp
    obtain ⟨t, _, _, hl⟩ := h.raw p hp
    rw [propFits, propOk, hl]
    split <;> simp_all
  exact ⟨fun h p hp => key p hp ▸ h p hp, fun h p hp => (key p hp).symm ▸ h p hp⟩

section
variable {date : Bool} {H : TypesHeader} {sigs : List Sig} (F : Files g cpp date H sigs)
include F

theorem Files.parse_embed_ok (hW : Inv g H sigs W) {e : Embed} (he : e ∈ g.embeds) {f : Func}
    (h : parseComposite g cpp (.embed e.name) e.name = .ok f) : f.ok W = e.properties.all (propOk date) := by
  have hfound := found_embed F.types hW.structs F.ids F.facts he
  have e1 : ownerProps g (.embed e.name) = e.properties := by rw [ownerProps, F.facts.named.embed? he]; rfl
  rw [← hfound.fits, ← e1]
  refine parseComposite_ok F.facts (F.scope hW) (by simp [allNames, defNames]; exact .inr (.inl ⟨e, he, rfl⟩)) ?_ h
  rw [e1]
  exact hfound.members fun p hp => F.supplies hW fun u hu => .embed e p he hp hu

theorem Files.parse_class_ok (hW : Inv g H sigs W) {c : Class} (hc : c ∈ g.classes) {f : Func}
    (h : parseComposite g cpp (.cls c.name) c.name = .ok f) : f.ok W = c.properties.all (propOk date) := by
  have hfound := found_class F.types hW.structs F.ids F.facts hc
  have e1 : ownerProps g (.cls c.name) = c.properties := by rw [ownerProps, F.facts.named.cls? hc]; rfl
  rw [← hfound.fits, ← e1]
  refine parseComposite_ok F.facts (F.scope hW) (by simp [allNames, defNames]; exact .inl ⟨c, hc, rfl⟩) ?_ h
  rw [e1]
  exact hfound.members fun p hp => F.supplies hW fun u hu => .cls c p hc hp hu

theorem Files.parse_graph_ok (hW : Inv g H sigs W) {f : Func} (h : parseGraph g cpp = .ok f) :
    f.ok W = (noInstance g && g.properties.all (propOk date)) := by
  have hfound := found_graph F.types hW.structs F.ids F.facts
  rw [← hfound.fits]
  refine parseGraph_ok F.facts (F.scope hW) (hfound.members fun p hp => F.supplies hW fun u hu => .graph p hp hu) ?_ h
  intro c hc
  exact ⟨hfound.more _ (List.mem_map.2 ⟨c, hc, rfl⟩),
    (found_class F.types hW.structs F.ids F.facts hc).more (c!"id", .string) (by simp),
    F.struct hW (by simp [allNames, defNames]; exact .inl ⟨c, hc, rfl⟩), hW.patterns c hc, F.parseClass hW hc⟩

theorem Files.serialize_embed_ok (hW : InvTo g date H sigs W) {e : Embed} (he : e ∈ g.embeds) (ht : TempFree (lower e.name)) {f : Func}
    (h : serializeComposite cpp e.name e.properties = .ok f) :
    f.ok W = (!decide (lower e.name ∈ keywords) && unhidden (lower e.name) (usesAll date e.properties)) := by
  have hfound := found_embed F.types hW.structs F.ids F.facts he
  exact serializeComposite_ok F.facts (F.declares hW.toInv) F.date (by simp [allNames, defNames]; exact .inr (.inl ⟨e, he, rfl⟩))
    (hfound.serMembers fun p hp => F.writes hW fun u hu => .embed e p he hp hu) ht h

theorem Files.serialize_class_ok (hW : InvTo g date H sigs W) {c : Class} (hc : c ∈ g.classes) (ht : TempFree (lower c.name)) {f : Func}
    (h : serializeComposite cpp c.name c.properties = .ok f) :
    f.ok W = (!decide (lower c.name ∈ keywords) && unhidden (lower c.name) (usesAll date c.properties)) := by
  have hfound := found_class F.types hW.structs F.ids F.facts hc
  exact serializeComposite_ok F.facts (F.declares hW.toInv) F.date (by simp [allNames, defNames]; exact .inl ⟨c, hc, rfl⟩)
    (hfound.serMembers fun p hp => F.writes hW fun u hu => .cls c p hc hp hu) ht h

theorem Files.serialize_graph_ok (hW : InvTo g date H sigs W) (ht : TempFree (lower g.name)) {f : Func}
    (h : serializeGraph g cpp = .ok f) :
    f.ok W = (!decide (lower g.name ∈ keywords) && unhidden (lower g.name) (usesAll date g.properties) &&
      g.classes.all (classFits (lower g.name))) := by
  have hfound := found_graph F.types hW.structs F.ids F.facts
  refine serializeGraph_ok F.facts (F.declares hW.toInv) F.date (F.knows hW.toInv (hW.fixed _ (by decide)))
    (hfound.serMembers fun p hp => F.writes hW fun u hu => .graph p hp hu) ?_ ht h
  intro c hc
  have hm : c.name ∈ allNames g := by simp [allNames, defNames]; exact .inl ⟨c, hc, rfl⟩
  exact ⟨hfound.more _ (List.mem_map.2 ⟨c, hc, rfl⟩),
    (found_class F.types hW.structs F.ids F.facts hc).more (c!"id", .string) (by simp), F.struct hW.toInv hm, F.serialize hW.toInv hm⟩

end

/-! ## The whole file -/

/-- What is declared after the definitions -/
def worldAfter : World → List Item → World
  | W, [] => W
  | W, .func f :: rest => worldAfter (W.declare f.sig) rest
  | W, .helper s :: rest => worldAfter (W.declare s) rest
  | W, .pattern n :: rest => worldAfter { W with patterns := n :: W.patterns } rest

theorem bodiesOk_append (a b : List Item) : bodiesOk W (a ++ b) ↔ bodiesOk W a ∧ bodiesOk (worldAfter W a) b := by
  induction a generalizing W with
  | nil => simp [bodiesOk, worldAfter]
  | cons i a ih =>
    cases i with
    | func f => simp only [List.cons_append, bodiesOk, worldAfter, ih, and_assoc]
    | helper s => simp only [List.cons_append, bodiesOk, worldAfter, ih]
    | pattern n => simp only [List.cons_append, bodiesOk, worldAfter, ih]

theorem bodiesOk_fixed {l : List Item} (h : ∀ i ∈ l, ∀ f, i ≠ .func f) : bodiesOk W l := by
  induction l generalizing W with
  | nil => trivial
  | cons i l ih =>
    cases i with
    | func f => exact absurd rfl (h _ (by simp) f)
    | helper s => exact ih fun i hi => h i (by simp [hi])
    | pattern n => exact ih fun i hi => h i (by simp [hi])

theorem after_structs (l : List Item) : (worldAfter W l).structs = W.structs := by
  induction l generalizing W with
  | nil => rfl
  | cons i l ih => cases i <;> simp [worldAfter, ih, World.declare]

theorem after_funcs (l : List Item) {s : Sig} : s ∈ (worldAfter W l).funcs ↔ (∃ i ∈ l, i.sig? = some s) ∨ s ∈ W.funcs := by
  induction l generalizing W with
  | nil => simp [worldAfter]
  | cons i l ih =>
    cases i <;> simp [worldAfter, ih, World.declare, Item.sig?]
    · grind
    · grind

theorem after_patterns (l : List Item) {n : Str} : n ∈ (worldAfter W l).patterns ↔ Item.pattern n ∈ l ∨ n ∈ W.patterns := by
  induction l generalizing W with
  | nil => simp [worldAfter]
  | cons i l ih =>
    cases i <;> simp [worldAfter, ih, World.declare]
    grind

/-- The functions of a file are accepted if each of them is accepted in some world with the declarations. -/
theorem bodiesOk_funcs {P : World → Prop} {fs : List Func} {B : Func → Prop} (hP : ∀ W, P W → ∀ f ∈ fs, P (W.declare f.sig))
    (hB : ∀ f ∈ fs, ∀ W, P W → (f.ok W = true ↔ B f)) (hW : P W) : bodiesOk W (fs.map .func) ↔ ∀ f ∈ fs, B f := by
  induction fs generalizing W with
  | nil => simp [bodiesOk]
  | cons f fs ih =>
    have h1 := hP W hW f (by simp)
    rw [List.map_cons, bodiesOk, hB f (by simp) _ h1,
      ih (fun W hW f hf => hP W hW f (by simp [hf])) (fun f hf => hB f (by simp [hf])) h1, List.forall_mem_cons]

theorem jsonImpl_inv {items : List Item} (h : jsonImpl g cpp = .ok items) :
    ∃ ps graph date classes embeds classesTo embedsTo graphTo, g.classes.mapM patternItem = .ok ps ∧ parseGraph g cpp = .ok graph ∧
      dateH cpp = .ok date ∧ g.classes.mapM (fun c => parseComposite g cpp (.cls c.name) c.name) = .ok classes ∧
      g.embeds.mapM (fun e => parseComposite g cpp (.embed e.name) e.name) = .ok embeds ∧
      g.classes.mapM (fun c => serializeComposite cpp c.name c.properties) = .ok classesTo ∧
      g.embeds.mapM (fun e => serializeComposite cpp e.name e.properties) = .ok embedsTo ∧
      serializeGraph g cpp = .ok graphTo ∧
      items = .helper messageSig :: ps.flatten ++
        (if needs g .duration then [.helper durationFromSig] else []) ++ [.helper valueTypeSig, .func graph] ++
        (if !date && (needs g .date || needs g .time || needs g .datetime) then [.helper tmSig] else []) ++
        (if needs g .duration then [.helper durationToSig] else []) ++
        (classes ++ embeds ++ classesTo ++ embedsTo ++ [graphTo]).map .func := by
  unfold jsonImpl at h
  obtain ⟨_, _, h⟩ := ok_bind h
  obtain ⟨ps, h1, h⟩ := ok_bind h
  obtain ⟨graph, h2, h⟩ := ok_bind h
  obtain ⟨date, h3, h⟩ := ok_bind h
  obtain ⟨classes, h4, h⟩ := ok_bind h
  obtain ⟨embeds, h5, h⟩ := ok_bind h
  obtain ⟨classesTo, h6, h⟩ := ok_bind h
  obtain ⟨embedsTo, h7, h⟩ := ok_bind h
  obtain ⟨graphTo, h8, h⟩ := ok_bind h
  cases h
  exact ⟨ps, graph, date, classes, embeds, classesTo, embedsTo, graphTo, h1, h2, h3, h4, h5, h6, h7, h8, rfl⟩

/-! ### The signatures -/

theorem parseComposite_sig {o : Owner} {n : Str} {f : Func} (h : parseComposite g cpp o n = .ok f) : parseDecl g o n = .ok f.sig := by
  unfold parseComposite at h
  obtain ⟨refs, h1, h⟩ := ok_bind h
  obtain ⟨rs, h2, h⟩ := ok_bind h
  obtain ⟨props, _, h⟩ := ok_bind h
  obtain ⟨x, h3, h⟩ := ok_bind h
  obtain ⟨y, h4, h⟩ := ok_bind h
  cases h
  rw [parseDecl, h1]
  simp only [bind, Except.bind, h2, h3, h4]
  rfl

theorem serializeComposite_sig {n : Str} {ps : List Property} {f : Func} (h : serializeComposite cpp n ps = .ok f) :
    serializeDecl n = .ok f.sig := by
  unfold serializeComposite at h
  obtain ⟨x, h1, h⟩ := ok_bind h
  obtain ⟨y, h2, h⟩ := ok_bind h
  obtain ⟨props, _, h⟩ := ok_bind h
  cases h
  rw [serializeDecl, h1]
  simp only [bind, Except.bind, h2]
  rfl

theorem serializeGraph_sig {f : Func} (h : serializeGraph g cpp = .ok f) : serializeDecl g.name = .ok f.sig := by
  unfold serializeGraph at h
  obtain ⟨x, h1, h⟩ := ok_bind h
  obtain ⟨y, h2, h⟩ := ok_bind h
  obtain ⟨props, _, h⟩ := ok_bind h
  obtain ⟨is, _, h⟩ := ok_bind h
  cases h
  rw [serializeDecl, h1]
  simp only [bind, Except.bind, h2]
  rfl

theorem parseGraph_sig {f : Func} (h : parseGraph g cpp = .ok f) : f.sig = graphSig g := by
  unfold parseGraph at h
  obtain ⟨props, _, h⟩ := ok_bind h
  obtain ⟨x, h1, h⟩ := ok_bind h
  obtain ⟨y, h2, h⟩ := ok_bind h
  obtain ⟨_, _, h⟩ := ok_bind h
  obtain ⟨_, _, h⟩ := ok_bind h
  cases h
  obtain ⟨rfl, _⟩ := PyCode.asVariable_eq h1
  obtain rfl := idOf_eq h2
  rfl

/-- What two files say about the same composites -/
theorem sigs_agree {α : Type} {l : List α} {D : α → Except Exc Sig} {G : α → Except Exc Func} {ss : List Sig} {fs : List Func}
    (h1 : l.mapM D = .ok ss) (h2 : l.mapM G = .ok fs) (h : ∀ a f, G a = .ok f → D a = .ok f.sig) : ss = fs.map Func.sig := by
  induction l generalizing ss fs with
  | nil => cases h1; cases h2; rfl
  | cons a l ih =>
    obtain ⟨s, ss', hs, hss, rfl⟩ := mapM_cons h1
    obtain ⟨f, fs', hf, hfs, rfl⟩ := mapM_cons h2
    rw [List.map_cons, ih hss hfs]
    have := h a f hf
    rw [hs] at this
    cases this
    rfl

theorem mapM_append_inv {α β : Type} {f : α → Except Exc β} {a b : List α} {y : List β} (h : (a ++ b).mapM f = .ok y) :
    ∃ u w, a.mapM f = .ok u ∧ b.mapM f = .ok w ∧ y = u ++ w := by
  rw [List.mapM_append] at h
  obtain ⟨u, hu, h⟩ := ok_bind h
  obtain ⟨w, hw, h⟩ := ok_bind h
  cases h
  exact ⟨u, w, hu, hw, rfl⟩

theorem mapM_map_inv {α β γ : Type} {f : β → Except Exc γ} {k : α → β} {l : List α} {y : List γ} (h : (l.map k).mapM f = .ok y) :
    l.mapM (fun a => f (k a)) = .ok y := by
  induction l generalizing y with
  | nil => exact h
  | cons a l ih =>
    rw [List.map_cons] at h
    obtain ⟨z, zs, h1, h2, rfl⟩ := mapM_cons h
    rw [List.mapM_cons, h1]
    simp only [bind, Except.bind, ih h2]
    rfl

/-- The function of a definition -/
def Item.func? : Item → Option Func
  | .func f => some f
  | _ => none

/-- The functions which are defined in the file -/
def funcsOf (items : List Item) : List Func := items.filterMap Item.func?

theorem funcsOf_append (a b : List Item) : funcsOf (a ++ b) = funcsOf a ++ funcsOf b := List.filterMap_append

theorem funcsOf_funcs (fs : List Func) : funcsOf (fs.map .func) = fs := by
  induction fs with
  | nil => rfl
  | cons f fs ih => exact congrArg (f :: ·) ih

theorem patternItem_inv {c : Class} {is : List Item} (h : patternItem c = .ok is) :
    is = if c.idPattern.isSome then [.pattern (lower c.name ++ c!"_re")] else [] := by
  unfold patternItem at h
  split at h
  · rename_i p hp
    obtain ⟨x, hx, h⟩ := ok_bind h
    cases h
    obtain ⟨rfl, _⟩ := PyCode.asVariable_eq hx
    rw [hp]
    rfl
  · rename_i hp
    cases h
    rw [hp]
    rfl

/-- The namespaces for the patterns -/
def patternNames (g : Graph) : List Str := (g.classes.filter fun c => c.idPattern.isSome).map fun c => lower c.name ++ c!"_re"

theorem patterns_inv {cs : List Class} {ps : List (List Item)} (h : cs.mapM patternItem = .ok ps) :
    ps.flatten = ((cs.filter fun c => c.idPattern.isSome).map fun c => lower c.name ++ c!"_re").map .pattern := by
  induction cs generalizing ps with
  | nil => cases h; rfl
  | cons c cs ih =>
    obtain ⟨p, ps', h1, h2, rfl⟩ := mapM_cons h
    rw [List.flatten_cons, ih h2, patternItem_inv h1, List.filter_cons]
    split <;> simp_all

/-- The definitions of the file in their order -/
structure Impl (g : Graph) (cpp : Cpp) (date : Bool) (items : List Item) where
  graph : Func
  classes : List Func
  embeds : List Func
  classesTo : List Func
  embedsTo : List Func
  graphTo : Func
  hgraph : parseGraph g cpp = .ok graph
  hclasses : g.classes.mapM (fun c => parseComposite g cpp (.cls c.name) c.name) = .ok classes
  hembeds : g.embeds.mapM (fun e => parseComposite g cpp (.embed e.name) e.name) = .ok embeds
  hclassesTo : g.classes.mapM (fun c => serializeComposite cpp c.name c.properties) = .ok classesTo
  hembedsTo : g.embeds.mapM (fun e => serializeComposite cpp e.name e.properties) = .ok embedsTo
  hgraphTo : serializeGraph g cpp = .ok graphTo
  hitems : items = (.helper messageSig :: (patternNames g).map .pattern ++
      (if needs g .duration then [.helper durationFromSig] else []) ++ [.helper valueTypeSig]) ++ [graph].map .func ++
      ((if !date && (needs g .date || needs g .time || needs g .datetime) then [.helper tmSig] else []) ++
        (if needs g .duration then [.helper durationToSig] else [])) ++
      (classes ++ embeds ++ classesTo ++ embedsTo ++ [graphTo]).map .func

theorem impl_of {date : Bool} {items : List Item} (hd : dateH cpp = .ok date) (h : jsonImpl g cpp = .ok items) :
    Nonempty (Impl g cpp date items) := by
  obtain ⟨ps, graph, date', classes, embeds, classesTo, embedsTo, graphTo, h1, h2, h3, h4, h5, h6, h7, h8, rfl⟩ := jsonImpl_inv h
  rw [hd] at h3
  cases h3
  refine ⟨graph, classes, embeds, classesTo, embedsTo, graphTo, h2, h4, h5, h6, h7, h8, ?_⟩
  rw [patterns_inv h1]
  simp [patternNames]

section
variable {date : Bool} {items : List Item} (I : Impl g cpp date items)
include I

theorem Impl.funcs : funcsOf items = I.graph :: (I.classes ++ I.embeds ++ I.classesTo ++ I.embedsTo ++ [I.graphTo]) := by
  have hp : funcsOf ((patternNames g).map .pattern) = [] := by
    rw [funcsOf, List.filterMap_eq_nil_iff]
    intro i hi
    obtain ⟨n, _, rfl⟩ := List.mem_map.1 hi
    rfl
  have h : ∀ (b : Bool) (s : Sig), funcsOf (if b then [.helper s] else []) = [] := by
    intro b s
    cases b <;> rfl
  refine (congrArg funcsOf I.hitems).trans ?_
  rw [funcsOf_append, funcsOf_append, funcsOf_append, funcsOf_append, funcsOf_append, funcsOf_append, funcsOf_funcs,
    funcsOf_funcs, h, h, h]
  rw [show (Item.helper messageSig :: (patternNames g).map Item.pattern) = [Item.helper messageSig] ++ (patternNames g).map Item.pattern from rfl,
    funcsOf_append, hp]
  rfl

/-- The declared signatures are those of the defined functions, in another order. -/
theorem Impl.sigs {sigs : List Sig} (hs : jsonHeader g cpp = .ok sigs) :
    sigs = I.graph.sig :: I.embeds.map Func.sig ++ I.classes.map Func.sig ++
      (I.graphTo.sig :: I.classesTo.map Func.sig ++ I.embedsTo.map Func.sig) := by
  obtain ⟨es, cs, ss, hes, hcs, hss, rfl⟩ := jsonHeader_inv hs
  obtain ⟨u, w, h1, h2, rfl⟩ := mapM_append_inv hss
  obtain ⟨s, ss', h3, h4, rfl⟩ := mapM_cons h1
  have e := serializeGraph_sig I.hgraphTo
  rw [h3] at e
  cases e
  rw [← parseGraph_sig I.hgraph, sigs_agree hes I.hembeds fun _ _ h => parseComposite_sig h,
    sigs_agree hcs I.hclasses fun _ _ h => parseComposite_sig h,
    sigs_agree (mapM_map_inv h4) I.hclassesTo fun _ _ h => serializeComposite_sig h,
    sigs_agree (mapM_map_inv h2) I.hembedsTo fun _ _ h => serializeComposite_sig h]

theorem Impl.perm {sigs : List Sig} (hs : jsonHeader g cpp = .ok sigs) : ((funcsOf items).map Func.sig).Perm sigs := by
  rw [I.sigs hs, I.funcs]
  simp only [List.map_cons, List.map_append, List.cons_append, List.map_nil]
  refine List.Perm.cons _ ?_
  rw [List.append_assoc, List.append_assoc, List.append_assoc, List.append_assoc]
  generalize I.classes.map Func.sig = a
  generalize I.embeds.map Func.sig = b
  generalize I.classesTo.map Func.sig = c
  generalize I.embedsTo.map Func.sig = d
  refine (List.perm_append_comm_assoc a b _).trans (List.Perm.append_left b (List.Perm.append_left a ?_))
  rw [← List.append_assoc]
  exact List.perm_append_singleton _ _

end

theorem mapM_all {α : Type} {G : α → Except Exc Func} {l : List α} {fs : List Func} {B : Func → Prop} {C : α → Prop}
    (h : l.mapM G = .ok fs) (hC : ∀ a ∈ l, ∀ f, G a = .ok f → (B f ↔ C a)) : (∀ f ∈ fs, B f) ↔ ∀ a ∈ l, C a := by
  constructor
  · intro hB a ha
    obtain ⟨f, hf, h1⟩ := mapM_mem' h ha
    exact (hC a ha f h1).1 (hB f hf)
  · intro hB f hf
    obtain ⟨a, ha, h1⟩ := mapM_mem h hf
    exact (hC a ha f h1).2 (hB a ha)

/-- The function which serializes a composite is accepted: the parameter is no keyword and hides no function. -/
def serOk (date : Bool) (n : Str) (ps : List Property) : Bool :=
  !decide (lower n ∈ keywords) && unhidden (lower n) (usesAll date ps)

theorem bodies_iff {date : Bool} {H : TypesHeader} {sigs : List Sig} {items : List Item} (F : Files g cpp date H sigs)
    (ht : ∀ n ∈ allNames g, TempFree (lower n)) (h : jsonImpl g cpp = .ok items) :
    bodiesOk (world H sigs) items ↔
      (noInstance g = true ∧ g.properties.all (propOk date) = true) ∧ (∀ c ∈ g.classes, c.properties.all (propOk date) = true) ∧
      (∀ e ∈ g.embeds, e.properties.all (propOk date) = true) ∧ (∀ c ∈ g.classes, serOk date c.name c.properties = true) ∧
      (∀ e ∈ g.embeds, serOk date e.name e.properties = true) ∧
      serOk date g.name g.properties = true ∧ g.classes.all (classFits (lower g.name)) = true := by
  obtain ⟨I⟩ := impl_of F.date h
  have hmem : ∀ f ∈ funcsOf items, f.sig ∈ sigs := fun f hf => (I.perm F.header).mem_iff.1 (List.mem_map.2 ⟨f, hf, rfl⟩)
  have hclass : ∀ c ∈ g.classes, c.name ∈ allNames g := fun c hc => by simp [allNames, defNames]; exact .inl ⟨c, hc, rfl⟩
  have hembed : ∀ e ∈ g.embeds, e.name ∈ allNames g := fun e he => by simp [allNames, defNames]; exact .inr (.inl ⟨e, he, rfl⟩)
  have hgraph : g.name ∈ allNames g := by simp [allNames, defNames]
  rw [I.funcs] at hmem
  generalize hpre : (Item.helper messageSig :: (patternNames g).map Item.pattern ++
      (if needs g .duration then [Item.helper durationFromSig] else []) ++ [Item.helper valueTypeSig]) = pre
  generalize hmid : ((if !date && (needs g .date || needs g .time || needs g .datetime) then [Item.helper tmSig] else []) ++
        (if needs g .duration then [Item.helper durationToSig] else [])) = mid
  have hitems := I.hitems
  rw [hpre, hmid] at hitems
  -- the declarations before the first function
  have hinv : Inv g H sigs (worldAfter (world H sigs) pre) := by
    refine ⟨after_structs pre, ?_, ?_, ?_, ?_, ?_⟩
    · intro s hs
      rcases (after_funcs pre).1 hs with ⟨i, hi, e⟩ | hs
      · right
        rw [← hpre] at hi
        simp only [List.mem_append, List.mem_cons, List.mem_map, List.not_mem_nil, or_false] at hi
        rcases hi with ((rfl | ⟨n, _, rfl⟩) | hi) | rfl
        · cases e; decide
        · cases e
        · split at hi
          · cases List.mem_singleton.1 hi; cases e; decide
          · cases hi
        · cases e; decide
      · rcases List.mem_append.1 hs with hs | hs
        · exact .inr (List.mem_append_left _ hs)
        · exact .inl hs
    · exact fun s hs => (after_funcs pre).2 (.inr (List.mem_append_right _ hs))
    · intro s hs
      rcases List.mem_append.1 hs with hs | hs
      · exact (after_funcs pre).2 (.inr (List.mem_append_left _ hs))
      · simp only [List.mem_cons, List.not_mem_nil, or_false] at hs
        rcases hs with rfl | rfl
        · exact (after_funcs pre).2 (.inl ⟨.helper messageSig, by rw [← hpre]; simp, rfl⟩)
        · exact (after_funcs pre).2 (.inl ⟨.helper valueTypeSig, by rw [← hpre]; simp, rfl⟩)
    · intro hd
      exact (after_funcs pre).2 (.inl ⟨.helper durationFromSig, by rw [← hpre, hd]; simp, rfl⟩)
    · intro c hc hp
      refine (after_patterns pre).2 (.inl ?_)
      rw [← hpre]
      have : lower c.name ++ c!"_re" ∈ patternNames g := List.mem_map.2 ⟨c, List.mem_filter.2 ⟨hc, hp⟩, rfl⟩
      simp [this]
  have hinv' : Inv g H sigs ((worldAfter (world H sigs) pre).declare I.graph.sig) := hinv.declare (.inl (hmem _ (by simp)))
  have hinvTo : InvTo g date H sigs (worldAfter (world H sigs) (pre ++ [I.graph].map Item.func ++ mid)) := by
    have e : ∀ (W : World) (a b : List Item), worldAfter W (a ++ b) = worldAfter (worldAfter W a) b := by
      intro W a b
      induction a generalizing W with
      | nil => rfl
      | cons i a ih => cases i <;> simp [worldAfter, ih]
    rw [e, e]
    have e2 : worldAfter (worldAfter (world H sigs) pre) ([I.graph].map Item.func) = (worldAfter (world H sigs) pre).declare I.graph.sig := rfl
    rw [e2]
    have hmid' : Inv g H sigs (worldAfter ((worldAfter (world H sigs) pre).declare I.graph.sig) mid) := by
      rw [← hmid]
      rw [e]
      split <;> split
      · exact (hinv'.declare (s := tmSig) (.inr (by decide))).declare (s := durationToSig) (.inr (by decide))
      · exact hinv'.declare (s := tmSig) (.inr (by decide))
      · exact hinv'.declare (s := durationToSig) (.inr (by decide))
      · exact hinv'
    refine ⟨hmid', ?_, ?_⟩
    · intro h1 h2
      refine (after_funcs mid).2 (.inl ⟨.helper tmSig, ?_, rfl⟩)
      rw [← hmid, h1, h2]
      simp
    · intro h1
      refine (after_funcs mid).2 (.inl ⟨.helper durationToSig, ?_, rfl⟩)
      rw [← hmid, h1]
      simp
  have hnofunc : ∀ (b : Bool) (s : Sig), ∀ i ∈ (if b then [Item.helper s] else []), ∀ f, i ≠ .func f := by
    intro b s i hi f
    cases b
    · cases hi
    · cases List.mem_singleton.1 hi
      simp
  have hpre' : bodiesOk (world H sigs) pre := by
    refine bodiesOk_fixed ?_
    rw [← hpre]
    intro i hi f
    simp only [List.mem_append, List.mem_cons, List.mem_map, List.not_mem_nil, or_false] at hi
    rcases hi with ((rfl | ⟨n, _, rfl⟩) | hi) | rfl
    · simp
    · simp
    · exact hnofunc _ _ i hi f
    · simp
  have hmid' : ∀ W, bodiesOk W mid := by
    intro W
    refine bodiesOk_fixed ?_
    rw [← hmid]
    intro i hi f
    rcases List.mem_append.1 hi with hi | hi
    · exact hnofunc _ _ i hi f
    · exact hnofunc _ _ i hi f
  rw [hitems, bodiesOk_append, bodiesOk_append, bodiesOk_append]
  have hfirst : bodiesOk (worldAfter (world H sigs) pre) ([I.graph].map Item.func) ↔ noInstance g = true ∧ g.properties.all (propOk date) = true := by
    rw [List.map_cons, List.map_nil, bodiesOk, bodiesOk, and_true, F.parse_graph_ok hinv' I.hgraph, Bool.and_eq_true]
  have hlast := bodiesOk_funcs (W := worldAfter (world H sigs) (pre ++ [I.graph].map Item.func ++ mid)) (P := InvTo g date H sigs)
    (fs := I.classes ++ I.embeds ++ I.classesTo ++ I.embedsTo ++ [I.graphTo])
    (B := fun f => ∀ W, InvTo g date H sigs W → f.ok W = true) (fun W hW f hf => hW.declare (.inl (hmem f (List.mem_cons_of_mem _ hf)))) ?_ hinvTo
  · have hB : ∀ {f : Func} {b : Bool}, (∀ W, InvTo g date H sigs W → f.ok W = b) →
        ((∀ W, InvTo g date H sigs W → f.ok W = true) ↔ b = true) := by
      intro f b hb
      exact ⟨fun h => (hb _ hinvTo).symm.trans (h _ hinvTo), fun h W hW => (hb W hW).trans h⟩
    rw [hlast]
    simp only [hpre', hmid', hfirst, and_true, true_and]
    simp only [List.forall_mem_append, List.forall_mem_singleton, and_assoc]
    rw [mapM_all I.hclasses fun c hc f hf => hB fun W hW => F.parse_class_ok hW.toInv hc hf,
      mapM_all I.hembeds fun e he f hf => hB fun W hW => F.parse_embed_ok hW.toInv he hf,
      mapM_all I.hclassesTo fun c hc f hf => hB fun W hW => F.serialize_class_ok hW hc (ht _ (hclass c hc)) hf,
      mapM_all I.hembedsTo fun e he f hf => hB fun W hW => F.serialize_embed_ok hW he (ht _ (hembed e he)) hf,
      hB fun W hW => F.serialize_graph_ok hW (ht _ hgraph) I.hgraphTo]
    simp only [Bool.and_eq_true, serOk]
  · have key : ∀ f ∈ I.classes ++ I.embeds ++ I.classesTo ++ I.embedsTo ++ [I.graphTo], ∃ b, ∀ W, InvTo g date H sigs W → f.ok W = b := by
      intro f hf
      simp only [List.mem_append, List.mem_singleton] at hf
      rcases hf with (((hf | hf) | hf) | hf) | rfl
      · obtain ⟨c, hc, h1⟩ := mapM_mem I.hclasses hf
        exact ⟨_, fun W hW => F.parse_class_ok hW.toInv hc h1⟩
      · obtain ⟨c, hc, h1⟩ := mapM_mem I.hembeds hf
        exact ⟨_, fun W hW => F.parse_embed_ok hW.toInv hc h1⟩
      · obtain ⟨c, hc, h1⟩ := mapM_mem I.hclassesTo hf
        exact ⟨_, fun W hW => F.serialize_class_ok hW hc (ht _ (hclass c hc)) h1⟩
      · obtain ⟨c, hc, h1⟩ := mapM_mem I.hembedsTo hf
        exact ⟨_, fun W hW => F.serialize_embed_ok hW hc (ht _ (hembed c hc)) h1⟩
      · exact ⟨_, fun W hW => F.serialize_graph_ok hW (ht _ hgraph) I.hgraphTo⟩
    intro f hf W hW
    obtain ⟨b, hb⟩ := key f hf
    exact ⟨fun h W' hW' => by rw [hb W' hW', ← hb W hW]; exact h, fun h => h W hW⟩

end Mapry.CppCode
