import Verif.GoGen
import Verif.GoMeaning
import Verif.GoRename

/-!
# The generated Go code as it is written

The texts of the variables tell them apart, in each function of the generated code.
-/

namespace Mapry.GoGen

open Mapry.GoLang Mapry.TypeGraph Mapry.Naming
open Mapry.GoCode (ok_bind Name v vi own isPointer plains bases Apart Std parserEndings Capitals InstancesApart)

section

variable {P : Name → Prop} (hv : ∀ b ∈ plains, P (v b)) (hn : ∀ b ∈ bases, ∀ n, P (vi b n))

theorem all_block {P : Name → Prop} : ∀ {ss : List Stmt}, (∀ s ∈ ss, s.All P) → (block ss).All P
  | [], _ => trivial
  | s :: _, h => ⟨h s List.mem_cons_self, all_block fun t ht => h t (List.mem_cons_of_mem _ ht)⟩

theorem all_exprs {P : Name → Prop} {es : List Expr} : alls P es ↔ ∀ e ∈ es, e.All P := by
  induction es with
  | nil => simp [alls]
  | cons e es ih => simp [alls, ih]

/-! ## Serializing -/

theorem all_serializeDateTime {f : Str} {target : Place} {value : Expr} {s : Stmt} (ht : target.All P) (hx : value.All P)
    (h : serializeDateTime f target value = .ok s) : s.All P := by
  obtain ⟨format, _, h⟩ := ok_bind h
  cases h
  refine ⟨ht, ?_⟩
  show (ite _ _ _ : Expr).All P
  split
  · trivial
  · exact hx

include hn in
theorem all_serializeValue {t : Ty} {target : Place} {value : Expr} {n : Nat} {q : Stmt × Nat} (ht : target.All P)
    (hx : value.All P) (h : serializeValue t target value n = .ok q) : q.1.All P := by
  induction t generalizing target value n q with
  | boolean => cases h; exact ⟨ht, hx⟩
  | integer b => cases h; exact ⟨ht, hx⟩
  | float b => cases h; exact ⟨ht, hx⟩
  | string p => cases h; exact ⟨ht, hx⟩
  | path p => cases h; exact ⟨ht, hx⟩
  | timeZone => cases h; exact ⟨ht, hx⟩
  | duration => cases h; exact ⟨ht, hx⟩
  | cls c => cases h; exact ⟨ht, hx⟩
  | date f =>
    obtain ⟨s, hs, h⟩ := ok_bind h
    cases h
    exact all_serializeDateTime ht hx hs
  | time f =>
    obtain ⟨s, hs, h⟩ := ok_bind h
    cases h
    exact all_serializeDateTime ht hx hs
  | datetime f =>
    obtain ⟨s, hs, h⟩ := ok_bind h
    cases h
    exact all_serializeDateTime ht hx hs
  | embed name =>
    obtain ⟨f, _, h⟩ := ok_bind h
    cases h
    refine ⟨ht, fun a ha => ?_⟩
    cases List.mem_singleton.1 ha
    exact hx
  | array t lo hi ih =>
    obtain ⟨⟨item, m⟩, hi, h⟩ := ok_bind h
    cases h
    have h1 := hn c!"target" (by decide) n
    have h2 := hn c!"i" (by decide) n
    have h3 := hn c!"slice" (by decide) n
    have h4 := hn c!"count" (by decide) n
    have := ih (by exact ⟨h1, h2⟩) (by exact ⟨h3, h2⟩) hi
    exact ⟨⟨h4, hx⟩, ⟨h3, hx⟩, ⟨h1, h4⟩, ⟨h2, h4, this⟩, ⟨ht, h1⟩, trivial⟩
  | map t ih =>
    obtain ⟨⟨item, m⟩, hi, h⟩ := ok_bind h
    cases h
    have h1 := hn c!"target" (by decide) n
    have h2 := hn c!"k" (by decide) n
    have h3 := hn c!"v" (by decide) n
    have h4 := hn c!"map" (by decide) n
    have := ih (by exact ⟨h1, h2⟩) (by exact h3) hi
    exact ⟨⟨h1, trivial⟩, ⟨h4, hx⟩, ⟨h2, fun z hz => (by cases hz; exact h3), h4, this⟩, ⟨ht, h1⟩, trivial⟩

include hv hn in
theorem all_serializeProps {ps : List Property} {n : Nat} {s : Stmt} (h : serializeProps ps n = .ok s) : s.All P := by
  induction ps generalizing n s with
  | nil => cases h; trivial
  | cons p ps ih =>
    obtain ⟨⟨c, m⟩, hc, h⟩ := ok_bind h
    obtain ⟨rest, hr, h⟩ := ok_bind h
    cases h
    refine ⟨?_, ih hr⟩
    obtain ⟨field, _, hc⟩ := ok_bind hc
    obtain ⟨⟨c', m'⟩, hc', hc⟩ := ok_bind hc
    cases hc
    have hi : P (v c!"instance") := hv _ (by decide)
    have := all_serializeValue hn (by exact ⟨hv c!"target" (by decide), trivial⟩) (by
      split
      · exact hi
      · exact hi) hc'
    show (ite _ _ _ : Stmt).All P
    split
    · exact ⟨hi, this, trivial⟩
    · exact this

include hv in
theorem all_start : start.All P :=
  ⟨⟨hv c!"instance" (by decide), trivial, trivial⟩, hv c!"target" (by decide), trivial⟩

end

/-- The name of a variable is nothing but its text. -/
def written (x : Name) : Name := .glob x.text

theorem inj_written {P : Name → Prop} (h : Apart P) : Inj written P := by
  intro x y hx hy e
  exact h x y hx hy (by simpa [written] using e)

/-- A variable which is not named after a class -/
def Usual (x : Name) : Prop := (∃ b ∈ plains, x = v b) ∨ ∃ b ∈ bases, ∃ n, x = vi b n

theorem std_usual {sufs : List Str} {x : Name} (h : Usual x) : Std sufs x := by
  rcases h with ⟨b, hb, rfl⟩ | ⟨b, hb, n, rfl⟩
  · exact .plain b hb
  · exact .num b n hb

theorem usual_v : ∀ b ∈ plains, Usual (v b) := fun b hb => .inl ⟨b, hb, rfl⟩

theorem usual_vi : ∀ b ∈ bases, ∀ n, Usual (vi b n) := fun b hb n => .inr ⟨b, hb, n, rfl⟩

theorem inj_usual : Inj written Usual :=
  inj_written fun x y hx hy => GoCode.apart_std (.inr rfl) x y (std_usual hx) (std_usual hy)

theorem safe_block {r : Name → Name} {P : Name → Prop} : ∀ {ss : List Stmt}, (∀ s ∈ ss, s.Safe r P) → (block ss).Safe r P
  | [], _ => trivial
  | s :: _, h => ⟨h s List.mem_cons_self, safe_block fun t ht => h t (List.mem_cons_of_mem _ ht)⟩

theorem safe_serializeComposite {name : Str} {ps : List Property} {F : Func} (h : serializeComposite name ps = .ok F) :
    F.Safe written := by
  obtain ⟨props, hp, h⟩ := ok_bind h
  obtain ⟨f, _, h⟩ := ok_bind h
  cases h
  refine ⟨Usual, inj_usual, ?_, safe_of_all inj_usual _ ⟨all_start usual_v, all_serializeProps usual_v usual_vi hp, trivial, trivial⟩,
    trivial⟩
  intro x hx
  simp only [List.cons_append, List.nil_append, List.mem_cons, List.not_mem_nil, or_false] at hx
  rcases hx with rfl | rfl <;> exact usual_v _ (by decide)

theorem safe_serializeRegistry {c : Class} (hn : GoCode.Capital c.name) (hp : GoCode.Capital c.plural)
    (ha : ∀ p i, ucamelCase c.plural = .ok p → camelCase c.name = .ok i → c!"target" ++ p ≠ i ++ c!"Instance")
    {s : Stmt} (h : serializeRegistry c = .ok s) : s.Safe written Usual := by
  obtain ⟨p, hp', h⟩ := ok_bind h
  obtain ⟨i, hi, h⟩ := ok_bind h
  obtain ⟨name, hname, h⟩ := ok_bind h
  obtain ⟨key, _, h⟩ := ok_bind h
  cases h
  have hne := ha p i hp' hi
  have hup := GoCode.upper_ucamel hp hp'
  let Q : Name → Prop := fun x => x = own c!"target" p [] ∨ (Std [c!"Instance"] x ∧ x.text ≠ c!"target" ++ p)
  have hQ : Inj written Q := by
    have ht : (own c!"target" p []).text = c!"target" ++ p := by simp [own, Name.text]
    refine inj_written ?_
    rintro x y (rfl | ⟨hx, hx'⟩) (rfl | ⟨hy, hy'⟩) e
    · rfl
    · exact absurd (e.symm.trans ht) hy'
    · exact absurd (e.trans ht) hx'
    · exact GoCode.apart_std (.inr rfl) x y hx hy e
  have hu : ∀ x, Usual x → Q x := by
    intro x hx
    refine .inr ⟨std_usual hx, GoCode.target_text hup (std_usual hx) ?_ ?_⟩
    · rcases hx with ⟨b, _, rfl⟩ | ⟨b, _, n, rfl⟩ <;> simp [v, vi]
    · rcases hx with ⟨b, _, rfl⟩ | ⟨b, _, n, rfl⟩ <;> simp [v, vi]
  have hin : Usual (v c!"instance") := usual_v _ (by decide)
  have h1 := hu _ hin
  have h2 : Q (v c!"id") := hu _ (usual_v _ (by decide))
  have h3 : Q (v c!"err") := hu _ (usual_v _ (by decide))
  have h4 : Q (v c!"target") := hu _ (usual_v _ (by decide))
  have h5 : Q (own c!"target" p []) := .inl rfl
  have h6 : Q (own [] i c!"Instance") :=
    .inr ⟨.own _ _ (by decide) (GoCode.low_camel hn hi), by simpa [own, Name.text] using hne.symm⟩
  refine ⟨hin, ⟨Q, hu, hQ, safe_of_all hQ _ ?_⟩, Usual, fun _ h => h, inj_usual, trivial⟩
  simp only [block, when, Stmt.All, Rhs.All, Expr.All, Place.All, alls, Arg.All, List.mem_singleton, forall_eq, h1, h2, h3, h4, h5,
    h6, and_self, reduceCtorEq, false_implies, implies_true]

theorem safe_serializeGraph {g : Graph} (hg : Capitals g) (ha : InstancesApart g) {F : Func} (h : serializeGraph g = .ok F) :
    F.Safe written := by
  obtain ⟨props, hp, h⟩ := ok_bind h
  obtain ⟨regs, hr, h⟩ := ok_bind h
  obtain ⟨f, _, h⟩ := ok_bind h
  cases h
  refine ⟨Usual, inj_usual, ?_, ?_, safe_of_all inj_usual _ ⟨usual_v _ (by decide), ⟨usual_v _ (by decide), trivial⟩, trivial⟩⟩
  · intro x hx
    simp only [List.cons_append, List.nil_append, List.mem_cons, List.not_mem_nil, or_false] at hx
    rcases hx with rfl | rfl | rfl <;> exact usual_v _ (by decide)
  · refine ⟨safe_of_all inj_usual _ (all_start usual_v), safe_of_all inj_usual _ (all_serializeProps usual_v usual_vi hp), ?_, trivial,
      trivial⟩
    refine safe_block fun s hs => ?_
    obtain ⟨c, hc, hs⟩ := GoCode.mapM_mem hr hs
    exact safe_serializeRegistry (hg c hc).1 (hg c hc).2 (ha c hc) hs

/-- The functions which serialize -/
theorem safe_writer {g : Graph} (hg : Capitals g) (ha : InstancesApart g) {P : Program} (h : writer g = .ok P) :
    ∀ F ∈ P.funcs, F.Safe written := by
  obtain ⟨classes, hc, h⟩ := ok_bind h
  obtain ⟨embeds, he, h⟩ := ok_bind h
  obtain ⟨graph, hgr, h⟩ := ok_bind h
  cases h
  intro F hF
  simp only [List.mem_append, List.mem_singleton] at hF
  rcases hF with (hF | hF) | rfl
  · obtain ⟨c, _, hc⟩ := GoCode.mapM_mem hc hF
    exact safe_serializeComposite hc
  · obtain ⟨e, _, he⟩ := GoCode.mapM_mem he hF
    exact safe_serializeComposite he
  · exact safe_serializeGraph hg ha hgr

/-! ## Parsing -/

section

variable {P : Name → Prop} (hv : ∀ b ∈ plains, P (v b)) (hn : ∀ b ∈ bases, ∀ n, P (vi b n))

theorem all_reportAt {ref args : List Expr} {format : Str} (hr : ∀ e ∈ ref, e.All P) (ha : ∀ e ∈ args, e.All P) :
    (reportAt ref format args).All P := ⟨all_exprs.2 hr, all_exprs.2 ha⟩

theorem only {e : Expr} (h : e.All P) : ∀ x ∈ [e], Expr.All P x := by
  intro x hx
  cases List.mem_singleton.1 hx
  exact h

include hn in
theorem all_castTo {cast : Name} {n : Nat} {k : Kind} {what : Str} {value : Expr} {ref : List Expr} {rest : Stmt} (hc : P cast)
    (hx : value.All P) (hr : ∀ e ∈ ref, e.All P) (h : rest.All P) : (castTo cast n k what value ref rest).All P :=
  ⟨⟨fun z hz => (by cases hz; exact hc), hn c!"ok" (by decide) n, hx⟩, hn c!"ok" (by decide) n, all_reportAt hr (only hx), h⟩

theorem all_storeVar {target : Place} {x : Name} (ht : target.All P) (hx : P x) : (storeVar target x).All P := ⟨ht, hx⟩

theorem all_checkBounds {ref : List Expr} {b : Bounds} {zeros verb : Str} {cast : Name} {target : Place}
    (hr : ∀ e ∈ ref, e.All P) (hc : P cast) (ht : target.All P) : (checkBounds ref b zeros verb cast target).All P := by
  have hrep : ∀ f, (reportAt ref f [.var cast]).All P := fun f => all_reportAt hr (only hc)
  unfold checkBounds
  cases b.max <;> cases b.min
  · exact ⟨ht, hc⟩
  · exact ⟨hc, hrep _, ht, hc⟩
  · exact ⟨hc, hrep _, ht, hc⟩
  · exact ⟨hc, hrep _, hc, hrep _, ht, hc⟩

include hn in
theorem all_parseText {ctx : Ctx} {p : Option Str} {value : Expr} {target : Place} {ref : List Expr} {n : Nat} {q : Stmt × Nat}
    (hx : value.All P) (ht : target.All P) (hr : ∀ e ∈ ref, e.All P) (h : parseText ctx p value target ref n = .ok q) :
    q.1.All P := by
  have hc := hn c!"cast" (by decide) n
  cases p with
  | none => cases h; exact all_castTo hn hc hx hr ⟨ht, hc⟩
  | some p =>
    obtain ⟨uid, _, h⟩ := ok_bind h
    cases h
    exact all_castTo hn hc hx hr ⟨hc, all_reportAt hr (only hc), ht, hc⟩

include hn in
theorem all_convertWith {two : Expr → Two} {format : Str} {args : List Expr} {value : Expr} {target : Place} {ref : List Expr}
    {n : Nat} (h2 : ∀ e, e.All P → (two e).All P) (ha : ∀ e ∈ args, e.All P) (hx : value.All P) (ht : target.All P)
    (hr : ∀ e ∈ ref, e.All P) : (convertWith two format args value target ref n).All P := by
  have hc := hn c!"cast" (by decide) n
  have h1 := hn c!"target" (by decide) n
  have he := hn c!"err" (by decide) n
  refine all_castTo hn hc hx hr ⟨⟨fun z hz => (by cases hz; exact h1), he, h2 _ hc⟩, he, all_reportAt hr ?_, ht, h1⟩
  intro e hm
  rcases List.mem_cons.1 hm with rfl | hm
  · exact hc
  · exact ha e hm

include hn in
theorem all_parseDateTime {f : Str} {value : Expr} {target : Place} {ref : List Expr} {n : Nat} {q : Stmt × Nat}
    (hx : value.All P) (ht : target.All P) (hr : ∀ e ∈ ref, e.All P) (h : parseDateTime f value target ref n = .ok q) :
    q.1.All P := by
  obtain ⟨layout, _, h⟩ := ok_bind h
  cases h
  exact all_convertWith hn (fun e he => he) (fun e he => by cases he) hx ht hr

theorem all_checkSize {ref : List Expr} {lo hi : Option Int} {cast : Name} {rest : Stmt} (hr : ∀ e ∈ ref, e.All P) (hc : P cast)
    (h : rest.All P) : (checkSize ref lo hi cast rest).All P := by
  have hrep : ∀ f, (reportAt ref f [.len (.var cast)]).All P := fun f => all_reportAt hr (only hc)
  unfold checkSize
  cases hi <;> cases lo
  · exact h
  · exact ⟨hc, hrep _, h⟩
  · exact ⟨hc, hrep _, h⟩
  · exact ⟨hc, hrep _, hc, hrep _, h⟩

theorem all_untilFull {s : Stmt} (h : s.All P) : (untilFull s).All P := ⟨h, trivial, trivial, trivial⟩

theorem more {ref : List Expr} {e : Expr} (hr : ∀ e ∈ ref, e.All P) (he : e.All P) : ∀ x ∈ ref ++ [e], Expr.All P x := by
  intro x hx
  rcases List.mem_append.1 hx with hx | hx
  · exact hr x hx
  · exact only he x hx

theorem all_expr {p : Place} (h : p.All P) : (expr p).All P := by
  cases p <;> exact h

include hv hn in
theorem all_parseValue {ctx : Ctx} (hreg : ∀ c e, ctx.registry c = .ok e → e.All P) {t : Ty} {value : Expr} {target : Place}
    {ref : List Expr} {n : Nat} {q : Stmt × Nat} (hx : value.All P) (ht : target.All P) (hr : ∀ e ∈ ref, e.All P)
    (h : parseValue ctx t value target ref n = .ok q) : q.1.All P := by
  induction t generalizing value target ref n q with
  | boolean =>
    cases h
    have hc := hn c!"cast" (by decide) n
    exact all_castTo hn hc hx hr ⟨ht, hc⟩
  | integer b =>
    cases h
    have hc := hn c!"fcast" (by decide) n
    have hc' := hn c!"cast" (by decide) n
    refine all_castTo hn hc hx hr ⟨hc, all_reportAt hr (only hc), hc, all_reportAt hr (only hc), ?_⟩
    split
    · exact ⟨ht, hc⟩
    · exact ⟨⟨hc', hc⟩, all_checkBounds hr hc' ht⟩
  | float b =>
    obtain ⟨_, _, h⟩ := ok_bind h
    obtain ⟨_, _, h⟩ := ok_bind h
    cases h
    have hc := hn c!"cast" (by decide) n
    exact all_castTo hn hc hx hr (all_checkBounds hr hc ht)
  | string p => exact all_parseText hn hx ht hr h
  | path p => exact all_parseText hn hx ht hr h
  | date f => exact all_parseDateTime hn hx ht hr h
  | time f => exact all_parseDateTime hn hx ht hr h
  | datetime f => exact all_parseDateTime hn hx ht hr h
  | timeZone =>
    cases h
    exact all_convertWith hn (fun e he => he) (only (hn c!"err" (by decide) n)) hx ht hr
  | duration =>
    cases h
    exact all_convertWith hn (fun e he => he) (only (hn c!"err" (by decide) n)) hx ht hr
  | array t lo hi ih =>
    obtain ⟨⟨item, m⟩, hi, h⟩ := ok_bind h
    cases h
    have hc := hn c!"cast" (by decide) n
    have h1 := hn c!"target" (by decide) n
    have h2 := hn c!"i" (by decide) n
    have := ih (by exact ⟨hc, h2⟩) (by exact ⟨h1, h2⟩) (by exact more hr h2) hi
    exact all_castTo hn hc hx hr (all_checkSize hr hc
      ⟨⟨h1, hc⟩, ⟨h2, hc, all_untilFull this⟩, ⟨ht, h1⟩, trivial⟩)
  | map t ih =>
    obtain ⟨⟨item, m⟩, hi, h⟩ := ok_bind h
    cases h
    have hc := hn c!"cast" (by decide) n
    have h1 := hn c!"target" (by decide) n
    have h2 := hn c!"k" (by decide) n
    have h3 := hn c!"item" (by decide) n
    have := ih (by exact ⟨hc, h2⟩) (by
      split
      · exact h3
      · exact ⟨h1, h2⟩) (by exact more hr h2) hi
    refine all_castTo hn hc hx hr ⟨⟨h1, trivial⟩, ⟨h2, fun z hz => (by cases hz), hc, all_untilFull ?_⟩, ⟨ht, h1⟩, trivial⟩
    split
    · exact ⟨⟨h3, trivial⟩, this, ⟨⟨h1, h2⟩, h3⟩, trivial⟩
    · exact this
  | cls c =>
    obtain ⟨registry, hg, h⟩ := ok_bind h
    obtain ⟨name, _, h⟩ := ok_bind h
    cases h
    have hc := hn c!"cast" (by decide) n
    have h1 := hn c!"target" (by decide) n
    have h2 := hn c!"ok" (by decide) n
    exact all_castTo hn hc hx hr ⟨⟨fun z hz => (by cases hz; exact h1), h2, hreg _ _ hg, hc⟩, h2, all_reportAt hr (only hx), ht, h1⟩
  | embed name =>
    obtain ⟨refs, _, h⟩ := ok_bind h
    obtain ⟨registries, hg, h⟩ := ok_bind h
    obtain ⟨f, _, h⟩ := ok_bind h
    cases h
    intro a ha
    simp only [List.cons_append, List.mem_cons, List.mem_append, List.mem_map, List.not_mem_nil, or_false] at ha
    rcases ha with rfl | ⟨e, he, rfl⟩ | rfl | rfl | rfl
    · exact hx
    · obtain ⟨c, _, hc⟩ := GoCode.mapM_mem hg he
      exact hreg _ _ hc
    · exact all_exprs.2 hr
    · exact all_expr ht
    · exact hv _ (by decide)

include hv hn in
theorem all_parseProps {ctx : Ctx} (hreg : ∀ c e, ctx.registry c = .ok e → e.All P) {ps : List Property} {n : Nat} {s : Stmt}
    (h : parseProps ctx ps n = .ok s) : s.All P := by
  induction ps generalizing n s with
  | nil => cases h; trivial
  | cons p ps ih =>
    obtain ⟨⟨c, m⟩, hc, h⟩ := ok_bind h
    obtain ⟨rest, hr, h⟩ := ok_bind h
    cases h
    refine ⟨?_, ⟨trivial, trivial, trivial⟩, ih hr⟩
    obtain ⟨f, _, hc⟩ := ok_bind hc
    obtain ⟨⟨parsing, m'⟩, hp, hc⟩ := ok_bind hc
    cases hc
    have h1 : P (v c!"target") := hv _ (by decide)
    have h2 : P (v c!"ref") := hv _ (by decide)
    have h3 := hn c!"target" (by decide) n
    have h4 := hn c!"value" (by decide) n
    have h5 := hn c!"ok" (by decide) n
    have := all_parseValue hv hn hreg (by exact h4) (by
      split
      · exact h1
      · exact h3) (by
      intro e he
      simp only [List.mem_cons, List.not_mem_nil, or_false] at he
      rcases he with rfl | rfl
      · exact h2
      · trivial) hp
    refine ⟨⟨fun z hz => (by cases hz; exact h4), h5, hv c!"cast" (by decide), trivial⟩, ?_⟩
    split
    · exact ⟨h5, ⟨h2, trivial⟩, this⟩
    · split
      · exact ⟨h5, this, trivial⟩
      · exact ⟨h5, ⟨⟨h3, trivial⟩, this, ⟨h1, h3⟩, trivial⟩, trivial⟩

include hv in
theorem all_preamble : preamble.All P := by
  have h1 : P (v c!"target") := hv _ (by decide)
  have h2 : P GoCode.errors := hv _ (by decide)
  exact ⟨⟨h1, trivial, trivial⟩, ⟨h2, trivial, trivial⟩, ⟨trivial, trivial, trivial⟩, trivial⟩

include hv in
theorem all_castMap {cast : Option Name} (hc : ∀ z, cast = some z → P z) : (castMap cast).All P := by
  have h1 : P (v c!"ok") := hv _ (by decide)
  have h2 : P (v c!"ref") := hv _ (by decide)
  have h3 : P (v c!"value") := hv _ (by decide)
  exact ⟨⟨hc, h1, h3⟩, h1, ⟨⟨h2, h3, trivial⟩, trivial⟩, trivial⟩

end

theorem std_v {sufs : List Str} : ∀ b ∈ plains, Std sufs (v b) := fun b hb => .plain b hb

theorem std_vi {sufs : List Str} : ∀ b ∈ bases, ∀ n, Std sufs (vi b n) := fun b hb n => .num b n hb

theorem inj_std : Inj written (Std parserEndings) := inj_written (GoCode.apart_std (.inl rfl))

theorem safe_parseComposite {g : Graph} (hg : Capitals g) {uids : List (Str × Nat)} {o : Owner} {name : Str} {ps : List Property}
    {isClass : Bool} {F : Func} (h : parseComposite g uids o name ps isClass = .ok F) : F.Safe written := by
  obtain ⟨refs, _, h⟩ := ok_bind h
  obtain ⟨params, hparams, h⟩ := ok_bind h
  obtain ⟨props, hprops, h⟩ := ok_bind h
  obtain ⟨f, _, h⟩ := ok_bind h
  cases h
  have hpr := all_parseProps (P := Std parserEndings) std_v std_vi (by
    intro c e he
    simp only at he
    split at he
    · obtain ⟨x, hx, he⟩ := ok_bind he
      cases he
      exact GoCode.std_registryParam hg hx
    · cases he) hprops
  refine ⟨Std parserEndings, inj_std, ?_, safe_of_all inj_std _ ⟨all_preamble std_v, all_castMap std_v ?_, ?_, hpr, trivial, trivial⟩,
    trivial⟩
  · intro x hx
    simp only [List.append_nil, List.mem_append, List.mem_cons, List.not_mem_nil, or_false] at hx
    rcases hx with ((rfl | hx) | hx) | rfl | rfl | rfl
    · exact std_v _ (by decide)
    · cases isClass with
      | false => cases hx
      | true =>
        cases List.mem_singleton.1 hx
        exact std_v _ (by decide)
    · obtain ⟨c, _, hc⟩ := GoCode.mapM_mem hparams hx
      exact GoCode.std_registryParam hg hc
    · exact std_v _ (by decide)
    · exact std_v _ (by decide)
    · exact std_v _ (by decide)
  · intro z hz
    split at hz
    · cases hz
    · cases hz
      exact std_v _ (by decide)
  · cases isClass with
    | false => trivial
    | true => exact ⟨std_v c!"target" (by decide), std_v c!"id" (by decide)⟩

theorem all_preallocate {uids : List (Str × Nat)} {c : Class} (hp : GoCode.Capital c.plural) {s : Stmt}
    (h : preallocate uids c = .ok s) : s.All (Std parserEndings) := by
  obtain ⟨p, hp', h⟩ := ok_bind h
  obtain ⟨field, _, h⟩ := ok_bind h
  obtain ⟨key, _, h⟩ := ok_bind h
  have hlow := GoCode.low_camel hp hp'
  have own : ∀ s ∈ parserEndings, Std parserEndings (GoCode.own [] p s) := fun s hs => .own _ _ hs hlow
  have h1 := own c!"Ref" (by decide)
  have h2 := own c!"Ok" (by decide)
  have h3 := own c!"Value" (by decide)
  have h4 := own c!"Map" (by decide)
  have k1 : Std parserEndings (v c!"target") := std_v _ (by decide)
  have k2 : Std parserEndings (v c!"id") := std_v _ (by decide)
  have k3 : Std parserEndings (v c!"ok") := std_v _ (by decide)
  have k4 : Std parserEndings (v c!"ref") := std_v _ (by decide)
  have k5 : Std parserEndings (v c!"cast") := std_v _ (by decide)
  cases hpat : c.idPattern with
  | none =>
    rw [hpat] at h
    cases h
    exact ⟨⟨h1, k4⟩, ⟨h2, trivial⟩, ⟨h3, trivial⟩, ⟨h4, trivial⟩, ⟨h3, h2, k5, trivial⟩,
      ⟨h2, ⟨⟨h4, k3, h3⟩, k3, ⟨h1, h3, trivial⟩, ⟨k1, trivial⟩, k2, fun z hz => (by cases hz), h4, ⟨k1, k2⟩, trivial⟩, trivial⟩, trivial⟩
  | some pat =>
    rw [hpat] at h
    obtain ⟨uid, _, h⟩ := ok_bind h
    cases h
    exact ⟨⟨h1, k4⟩, ⟨h2, trivial⟩, ⟨h3, trivial⟩, ⟨h4, trivial⟩, ⟨h3, h2, k5, trivial⟩,
      ⟨h2, ⟨⟨h4, k3, h3⟩, k3, ⟨h1, h3, trivial⟩, ⟨k1, trivial⟩, k2, fun z hz => (by cases hz), h4, k2, ⟨h1, k2, trivial⟩, ⟨k1, k2⟩,
        trivial⟩, trivial⟩, trivial⟩

theorem all_parseInstances {g : Graph} {c : Class} (hp : GoCode.Capital c.plural) {s : Stmt} (h : parseInstances g c = .ok s) :
    s.All (Std parserEndings) := by
  obtain ⟨p, hp', h⟩ := ok_bind h
  obtain ⟨field, _, h⟩ := ok_bind h
  obtain ⟨name, _, h⟩ := ok_bind h
  obtain ⟨refs, _, h⟩ := ok_bind h
  obtain ⟨registries, _, h⟩ := ok_bind h
  cases h
  have hlow := GoCode.low_camel hp hp'
  have own : ∀ s ∈ parserEndings, Std parserEndings (GoCode.own [] p s) := fun s hs => .own _ _ hs hlow
  have h1 := own c!"Ref" (by decide)
  have h2 := own c!"Ok" (by decide)
  have h4 := own c!"Map" (by decide)
  have k1 : Std parserEndings (v c!"target") := std_v _ (by decide)
  have k2 : Std parserEndings (v c!"id") := std_v _ (by decide)
  have k3 : Std parserEndings (v c!"value") := std_v _ (by decide)
  have k4 : Std parserEndings GoCode.errors := std_v _ (by decide)
  refine ⟨⟨h2, ⟨k2, fun z hz => (by cases hz; exact k3), h4, all_untilFull ?_⟩, trivial⟩, trivial, trivial, trivial⟩
  intro a ha
  simp only [List.cons_append, List.mem_cons, List.mem_append, List.mem_map, List.not_mem_nil, or_false] at ha
  rcases ha with rfl | rfl | ⟨e, _, rfl⟩ | rfl | rfl | rfl
  · exact k3
  · exact k2
  · exact k1
  · exact ⟨h1, k2, trivial⟩
  · exact ⟨k1, k2⟩
  · exact k4

theorem safe_parseGraph {g : Graph} (hg : Capitals g) {uids : List (Str × Nat)} {F : Func} (h : parseGraph g uids = .ok F) :
    F.Safe written := by
  obtain ⟨alloc, halloc, h⟩ := ok_bind h
  obtain ⟨insts, hinsts, h⟩ := ok_bind h
  obtain ⟨props, hprops, h⟩ := ok_bind h
  obtain ⟨f, _, h⟩ := ok_bind h
  cases h
  have hpr := all_parseProps (P := Std parserEndings) std_v std_vi (by
    intro c e he
    obtain ⟨x, _, he⟩ := ok_bind he
    cases he
    exact std_v _ (by decide)) hprops
  refine ⟨Std parserEndings, inj_std, ?_, safe_of_all inj_std _ ⟨all_preamble std_v, all_castMap std_v ?_, all_block ?_, ?_,
    all_block ?_, hpr, trivial, trivial⟩, trivial⟩
  · intro x hx
    simp only [List.append_nil, List.mem_cons, List.not_mem_nil, or_false] at hx
    rcases hx with rfl | rfl | rfl | rfl <;> exact std_v _ (by decide)
  · intro z hz
    cases hz
    exact std_v _ (by decide)
  · intro s hs
    obtain ⟨c, hc, hs⟩ := GoCode.mapM_mem halloc hs
    exact all_preallocate (hg c hc).2 hs
  · split
    · trivial
    · exact ⟨trivial, trivial, trivial⟩
  · intro s hs
    obtain ⟨c, hc, hs⟩ := GoCode.mapM_mem hinsts hs
    exact all_parseInstances (hg c hc).2 hs

/-- The functions which parse -/
theorem safe_reader {g : Graph} (hg : Capitals g) {P : Program} (h : reader g = .ok P) : ∀ F ∈ P.funcs, F.Safe written := by
  obtain ⟨classes, hc, h⟩ := ok_bind h
  obtain ⟨embeds, he, h⟩ := ok_bind h
  obtain ⟨graph, hgr, h⟩ := ok_bind h
  cases h
  intro F hF
  simp only [List.mem_append, List.mem_singleton] at hF
  rcases hF with (hF | hF) | rfl
  · obtain ⟨c, _, hc⟩ := GoCode.mapM_mem hc hF
    exact safe_parseComposite hg hc
  · obtain ⟨e, _, he⟩ := GoCode.mapM_mem he hF
    exact safe_parseComposite hg he
  · exact safe_parseGraph hg hgr

end Mapry.GoGen
