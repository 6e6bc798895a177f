import Verif.PyExecProps
import Verif.PyFromModule

/-!
# Calls of the generated Python code: arguments, constructors and placeholders
-/

namespace Mapry.PyExec

open Mapry.PyLang Mapry.PyGen Mapry.PyRuntime Mapry.Text Mapry.Duration Mapry.Naming
open Mapry.TypeGraph hiding Obj
open Mapry.PyRuntime (Json Lib Val)
open PyCode (ok_bind attrs idOf allNames defNames)

/-! ## Arguments -/

theorem lookup_mem {α : Type} {l : List (Str × α)} (h : (l.map (·.1)).Nodup) {x : Str} {p : α} (hm : (x, p) ∈ l) :
    l.lookup x = some p := by
  induction l with
  | nil => cases hm
  | cons kv rest ih =>
    obtain ⟨k, q⟩ := kv
    simp only [List.map_cons, List.nodup_cons] at h
    rw [List.lookup_cons]
    rcases List.mem_cons.1 hm with e | hm
    · cases e; simp
    · have : x ≠ k := fun e => h.1 (e ▸ List.mem_map.2 ⟨_, hm, rfl⟩)
      have : (x == k) = false := by simpa using this
      rw [this]
      exact ih h.2 hm

theorem mem_of_lookup {α : Type} {l : List (Str × α)} {x : Str} {p : α} (h : l.lookup x = some p) : (x, p) ∈ l := by
  induction l with
  | nil => cases h
  | cons kv rest ih =>
    obtain ⟨k, q⟩ := kv
    rw [List.lookup_cons] at h
    split at h
    · rename_i e
      cases h
      rw [beq_iff_eq] at e
      simp [e]
    · exact List.mem_cons_of_mem _ (ih h)

theorem lookup_none_iff {α : Type} {l : List (Str × α)} {x : Str} : l.lookup x = none ↔ x ∉ l.map (·.1) := by
  induction l with
  | nil => simp
  | cons kv rest ih =>
    obtain ⟨k, q⟩ := kv
    rw [List.lookup_cons]
    by_cases e : x = k
    · simp [e]
    · have : (x == k) = false := by simpa using e
      rw [this]
      simpa [e] using ih

theorem bindParams_pos (xs : List Str) : ∀ ps : List PV, xs.length = ps.length →
    bindParams (xs.map (⟨·, none⟩)) ps [] = some (xs.zip ps) := by
  induction xs with
  | nil => intro ps h; cases ps with
    | nil => rfl
    | cons => cases h
  | cons x xs ih =>
    intro ps h
    cases ps with
    | nil => cases h
    | cons p ps =>
      rw [List.map_cons, bindParams, ih ps (by simpa using h)]
      rfl

/-- Positional arguments -/
theorem bindArgs_pos {xs : List Str} {ps : List PV} (h : xs.length = ps.length) :
    bindArgs (xs.map (⟨·, none⟩)) (ps.map fun p => (none, p)) = some (xs.zip ps) := by
  have h1 : keywords (ps.map fun p => ((none : Option Str), p)) = [] := by simp [keywords]
  have h2 : positional (ps.map fun p => ((none : Option Str), p)) = ps := by simp [positional, List.filterMap_map, Function.comp_def]
  rw [bindArgs, h1, h2]
  exact bindParams_pos xs ps h

theorem bindParams_kw {val : Str → PV} {kws : List (Str × PV)} : ∀ params : List Param,
    (∀ p ∈ params, (kws.lookup p.name).or p.default = some (val p.name)) →
    bindParams params [] kws = some (params.map fun p => (p.name, val p.name)) := by
  intro params
  induction params with
  | nil => intro _; rfl
  | cons p ps ih =>
    intro h
    rw [bindParams, h p (by simp)]
    simp only
    rw [ih fun p hp => h p (by simp [hp])]
    rfl

/-- Keyword arguments -/
theorem bindArgs_kw {val : Str → PV} {kws : List (Str × PV)} {params : List Param}
    (h1 : ∀ kw ∈ kws, ∃ p ∈ params, p.name = kw.1)
    (h2 : ∀ p ∈ params, (kws.lookup p.name).or p.default = some (val p.name)) :
    bindArgs params (kws.map fun kw => (some kw.1, kw.2)) = some (params.map fun p => (p.name, val p.name)) := by
  have e1 : keywords (kws.map fun kw => (some kw.1, kw.2)) = kws := by
    simp [keywords, List.filterMap_map, Function.comp_def]
  have e2 : positional (kws.map fun kw => (some kw.1, kw.2)) = [] := by simp [positional, List.filterMap_map, Function.comp_def]
  rw [bindArgs, e1, e2, if_pos, bindParams_kw params h2]
  simp only [List.all_eq_true, List.any_eq_true, decide_eq_true_eq]
  exact h1

section

variable {L : Lib} {call : Fn → Actual → M PV} {s s' : St}

theorem evalArgs_args {es : List Expr} {ps : List PV} (h : Forall₂ (fun e p => eval L call e s = (.ok p, s)) es ps) :
    evalArgs L call (args es) s = (.ok (ps.map fun p => (none, p)), s) := by
  induction h with
  | nil => rw [args, evalArgs]; rfl
  | cons hh _ ih => rw [args, evalArgs, bind_ok hh, bind_ok ih]; rfl

theorem evalArgs_kwargs {es : List (Str × Expr)} {ps : List (Str × PV)}
    (h : Forall₂ (fun e p => e.1 = p.1 ∧ eval L call e.2 s = (.ok p.2, s)) es ps) :
    evalArgs L call (kwargs es) s = (.ok (ps.map fun p => (some p.1, p.2)), s) := by
  induction h with
  | nil => rw [kwargs, evalArgs]; rfl
  | cons hh _ ih => rw [kwargs, evalArgs, bind_ok hh.2, bind_ok ih, hh.1]; rfl

end

/-! ## Definitions are found by their name -/

theorem findLast_unique {α : Type} {name : α → Str} {l : List α} {a : α} (ha : a ∈ l)
    (h : ∀ b ∈ l, name b = name a → b = a) : findLast name l (name a) = some a := by
  rw [findLast]
  cases e : l.reverse.find? (fun b => decide (name b = name a)) with
  | none =>
    rw [List.find?_eq_none] at e
    exact absurd (decide_eq_true rfl) (e a (List.mem_reverse.2 ha))
  | some b =>
    have h1 := List.find?_some e
    have h2 := List.mem_reverse.1 (List.mem_of_find?_eq_some e)
    rw [h b h2 (by simpa using h1)]

theorem nodup_inj {α : Type} {f : α → Str} {l : List α} (h : (l.map f).Nodup) {a b : α} (ha : a ∈ l) (hb : b ∈ l)
    (e : f a = f b) : a = b := by
  induction l with
  | nil => cases ha
  | cons x xs ih =>
    simp only [List.map_cons, List.nodup_cons, List.mem_map, not_exists, not_and] at h
    rcases List.mem_cons.1 ha with ea | ha' <;> rcases List.mem_cons.1 hb with eb | hb'
    · rw [ea, eb]
    · exact absurd (e ▸ ea ▸ rfl) (h.1 b hb')
    · exact absurd (eb ▸ e) (h.1 a ha')
    · exact ih h.2 ha' hb'

/-! ## Constructors -/

/-- The attributes are the ones with the names, all `None`, and the ones of `rest`. -/
def NoneAttrs (xs : List Str) (rest ps : List (Str × PV)) : Prop :=
  ∀ x, ps.lookup x = if x ∈ xs then some .none else rest.lookup x

theorem write_same {s : St} {a : Addr} {o : Obj} (h : s.heap[a]? = some o) : s.write a o = s := by
  have : s.heap.set a o = s.heap := by
    apply List.ext_getElem?
    intro i
    rw [List.getElem?_set]
    split
    · rename_i e; subst e
      rw [h, if_pos (lt_of_get h)]
    · rfl
  rw [St.write, this]

theorem write_write (s : St) (a : Addr) (o o' : Obj) : (s.write a o).write a o' = s.write a o' := by simp [St.write]

theorem push_write (s : St) (o o' : Obj) : (s.push o).write s.heap.length o' = s.push o' := by simp [St.write, St.push]

section

variable {L : Lib} {call : Fn → Actual → M PV} {s : St}

theorem keep_eq {p : Property} {st : Stmt} (h : PyGen.keep p = .ok st) :
    st = .assign (.attr (v c!"self") (attr p)) (if p.optional then .cond (.isNotNone (v (attr p))) (v (attr p)) .none
      else v (attr p)) := by
  obtain ⟨x, hx, h⟩ := ok_bind h
  obtain ⟨rfl, -⟩ := PyCode.asAttribute_eq hx
  cases h
  rfl

theorem param_eq {p : Property} {q : Param} (h : PyGen.param p = .ok q) :
    q = ⟨attr p, if p.optional then some .none else none⟩ := by
  obtain ⟨x, hx, h⟩ := ok_bind h
  obtain ⟨rfl, -⟩ := PyCode.asAttribute_eq hx
  cases h
  rfl

theorem params_eq {ps : List Property} {qs : List Param} (h : ps.mapM PyGen.param = .ok qs) :
    qs = ps.map fun p => ⟨attr p, if p.optional then some .none else none⟩ := by
  exact PyCode.mapM_eq_map h fun a b _ hb => param_eq hb

theorem noneArgs_map {ps : List Property} {qs : List (Str × Expr)} (h : ps.mapM PyGen.noneArg = .ok qs) :
    qs = ps.map fun p => (attr p, .none) := by
  refine PyCode.mapM_eq_map h fun a b _ hb => ?_
  obtain ⟨x, hx, hb⟩ := ok_bind hb
  obtain ⟨rfl, -⟩ := PyCode.asAttribute_eq hx
  cases hb
  rfl

theorem exec_block_append {as bs : List Stmt} {s' : St} (h : exec L call (block as) s = (.ok .normal, s')) :
    exec L call (block (as ++ bs)) s = exec L call (block bs) s' := by
  induction as generalizing s with
  | nil =>
    rw [block, exec_pass] at h
    cases h
    rfl
  | cons a as ih =>
    rw [block, exec] at h
    rw [List.cons_append, block, exec]
    generalize hr : exec L call a s = r at h
    obtain ⟨r, s1⟩ := r
    cases r with
    | error x => rw [bind_error hr] at h; cases h
    | ok f =>
      rw [bind_ok hr] at h ⊢
      cases f with
      | normal => exact ih h
      | _ => cases h

/-- The part of the constructor for the properties -/
theorem keeps_run {a : Addr} {cn : Str} : ∀ (ps : List Property) (body : List Stmt), ps.mapM PyGen.keep = .ok body →
    ∀ (s : St) (rest : List (Str × PV)), s.vars c!"self" = some (.addr a) → s.heap[a]? = some (.inst cn rest) →
    (∀ p ∈ ps, s.vars (attr p) = some .none) →
    ∃ q, exec L call (block body) s = (.ok .normal, s.write a (.inst cn q)) ∧ NoneAttrs (attrs ps) rest q := by
  intro ps
  induction ps with
  | nil =>
    intro body h s rest _ ho _
    rw [GoCode.mapM_nil] at h
    cases h
    refine ⟨rest, ?_, fun x => by simp [attrs]⟩
    rw [block, exec_pass]
    rw [write_same ho]
  | cons p ps ih =>
    intro body h s rest hs ho hv
    obtain ⟨st, sts, hst, hsts, rfl⟩ := GoCode.mapM_cons h
    rw [keep_eq hst]
    have he : eval L call (if p.optional then .cond (.isNotNone (v (attr p))) (v (attr p)) .none else v (attr p)) s =
        (.ok .none, s) := by
      have hn := eval_name (L := L) (call := call) (hv p (by simp))
      split
      · rw [eval, bind_ok (eval_isNotNone hn)]
        simp only [PV.isNone, Bool.not_true, truth, Bool.false_eq_true, if_false]
        rw [eval]
        rfl
      · exact hn
    have h1 : exec L call (.assign (.attr (v c!"self") (attr p)) (if p.optional then .cond (.isNotNone (v (attr p))) (v (attr p)) .none
        else v (attr p))) s = (.ok .normal, s.write a (.inst cn (put (attr p) .none rest))) := by
      rw [exec_assign he, bind_ok (assign_attr hs ho _ _)]
      rfl
    rw [block, exec_seq h1]
    obtain ⟨q, h2, h3⟩ := ih sts hsts (s.write a (.inst cn (put (attr p) .none rest))) _ hs (write_self _ ho)
      (fun p hp => hv p (by simp [hp]))
    refine ⟨q, ?_, fun x => ?_⟩
    · rw [h2]
      simp [St.write]
    · rw [h3 x, lookup_put]
      simp only [attrs, List.map_cons, List.mem_cons, attr]
      by_cases e : x = lower p.name
      · simp [e]
      · simp [e]

/-- A dictionary for every class -/
def dicts (cs : List Class) : List Obj := cs.map fun _ => .dict true []

/-- The part of the constructor for the registries -/
theorem registries_run {a : Addr} {cn : Str} : ∀ (cs : List Class) (body : List Stmt), cs.mapM PyGen.keepRegistry = .ok body →
    (cs.map fun c => lower c.plural).Nodup →
    ∀ (s : St) (rest : List (Str × PV)), s.vars c!"self" = some (.addr a) → s.heap[a]? = some (.inst cn rest) →
    (∀ c ∈ cs, s.vars (lower c.plural) = some .none) →
    ∃ q, exec L call (block body) s = (.ok .normal, ⟨s.heap.set a (.inst cn q) ++ dicts cs, s.vars⟩) ∧
      (∀ x, x ∉ (cs.map fun c => lower c.plural) → q.lookup x = rest.lookup x) ∧
      ∀ (i : Nat) c, cs[i]? = some c → q.lookup (lower c.plural) = some (.addr (s.heap.length + i)) := by
  intro cs
  induction cs with
  | nil =>
    intro body h _ s rest _ ho _
    rw [GoCode.mapM_nil] at h
    cases h
    refine ⟨rest, ?_, fun _ _ => rfl, fun i c h => by simp at h⟩
    rw [block, exec_pass]
    have := write_same ho
    rw [St.write] at this
    simp only [dicts, List.map_nil, List.append_nil]
    rw [this]
  | cons c cs ih =>
    intro body h hn s rest hs ho hv
    obtain ⟨st, sts, hst, hsts, rfl⟩ := GoCode.mapM_cons h
    obtain ⟨x, hx, hst⟩ := ok_bind hst
    obtain ⟨rfl, -⟩ := PyCode.asAttribute_eq hx
    cases hst
    simp only [List.map_cons, List.nodup_cons] at hn
    have hlt := lt_of_get ho
    have h1 : exec L call (.ite (.isNotNone (v (lower c.plural))) (.assign (.attr (v c!"self") (lower c.plural)) (v (lower c.plural)))
        (.assign (.attr (v c!"self") (lower c.plural)) (.newDict true))) s =
        (.ok .normal, (s.push (.dict true [])).write a (.inst cn (put (lower c.plural) (.addr s.heap.length) rest))) := by
      have he : eval L call (.newDict true) s = (.ok (.addr s.heap.length), s.push (.dict true [])) := by rw [eval]; rfl
      rw [exec_if_false (s' := s) (by rw [eval_isNotNone (eval_name (hv c (by simp)))]; rfl), exec_assign he,
        bind_ok (assign_attr (s := s.push (.dict true [])) hs (by rw [push_lt _ hlt]; exact ho) _ _)]
      rfl
    rw [block, exec_seq h1]
    obtain ⟨q, h2, h3, h4⟩ := ih sts hsts hn.2
      ((s.push (.dict true [])).write a (.inst cn (put (lower c.plural) (.addr s.heap.length) rest))) _ hs
      (write_self _ (o := .inst cn rest) (by rw [push_lt _ hlt]; exact ho)) (fun c hc => hv c (by simp [hc]))
    refine ⟨q, ?_, fun x hx => ?_, fun i d hd => ?_⟩
    · rw [h2]
      simp only [St.write, St.push, List.set_set, dicts, List.map_cons]
      rw [List.set_append_left _ _ hlt, List.append_assoc]
      rfl
    · simp only [List.map_cons, List.mem_cons, not_or] at hx
      rw [h3 x hx.2, lookup_put, if_neg hx.1]
    · cases i with
      | zero =>
        simp only [List.getElem?_cons_zero, Option.some.injEq] at hd
        subst hd
        rw [h3 _ hn.1, lookup_put, if_pos rfl]
        rfl
      | succ i =>
        rw [h4 i d (by simpa using hd)]
        simp only [St.write, St.push, List.length_set, List.length_append, List.length_singleton]
        exact congrArg (fun n => some (PV.addr n)) (Nat.add_right_comm _ 1 i)

/-- The parameters for properties and their arguments: everything is `None`. -/
theorem nones_bound {ps : List Property} {qs : List Param}
    (h : (orderByOptional ps).mapM PyGen.param = .ok qs) :
    (∀ kw ∈ (PyCode.required ps).map (fun p => (attr p, PV.none)), ∃ q ∈ qs, q.name = kw.1) ∧
    (∀ q ∈ qs, (((PyCode.required ps).map (fun p => (attr p, PV.none))).lookup q.name).or q.default = some .none) ∧
    qs.map (·.name) = attrs (orderByOptional ps) := by
  have hq := params_eq h
  subst hq
  refine ⟨fun kw hkw => ?_, fun q hq => ?_, by simp [attrs, attr, Function.comp_def]⟩
  · obtain ⟨p, hp, rfl⟩ := List.mem_map.1 hkw
    have hp' : p ∈ ps := (List.mem_filter.1 hp).1
    exact ⟨_, List.mem_map.2 ⟨p, (PyCode.order_perm ps).mem_iff.2 hp', rfl⟩, rfl⟩
  · obtain ⟨p, hp, rfl⟩ := List.mem_map.1 hq
    have hp' : p ∈ ps := (PyCode.order_perm ps).mem_iff.1 hp
    simp only
    cases hl : ((PyCode.required ps).map (fun p => (attr p, PV.none))).lookup (attr p) with
    | some w =>
      obtain ⟨_, _, e⟩ := List.mem_map.1 (mem_of_lookup hl)
      rw [← (Prod.mk.inj e).2]
      rfl
    | none =>
      cases ho : p.optional with
      | true => rfl
      | false =>
        rw [lookup_none_iff] at hl
        refine absurd ?_ hl
        rw [List.map_map]
        exact List.mem_map.2 ⟨p, List.mem_filter.2 ⟨hp', by simp [ho]⟩, rfl⟩

theorem lookup_map_none {qs : List Param} {x : Str} (h : x ∈ qs.map (·.name)) (val : Str → PV) :
    (qs.map fun p => (p.name, val p.name)).lookup x = some (val x) := by
  induction qs with
  | nil => cases h
  | cons q qs ih =>
    rw [List.map_cons, List.lookup_cons]
    by_cases e : x = q.name
    · simp [e]
    · have e' : (x == q.name) = false := by simpa using e
      rw [e']
      exact ih (by simpa [e] using h)

/-- The keyword arguments of a placeholder -/
def nones (ps : List Property) : List (Str × PV) := (PyCode.required ps).map fun p => (attr p, .none)

def kwActual (kws : List (Str × PV)) : Actual := kws.map fun kw => (some kw.1, kw.2)

theorem mem_order {ps : List Property} {p : Property} : p ∈ orderByOptional ps ↔ p ∈ ps := (PyCode.order_perm ps).mem_iff

theorem NoneAttrs.order {ps : List Property} {rest q} (h : NoneAttrs (attrs (orderByOptional ps)) rest q) :
    NoneAttrs (attrs ps) rest q := by
  intro x
  rw [h x]
  simp only [PyCode.mem_attrs_order]

/-- A class whose constructor only keeps the properties -/
theorem construct_plain {name : Str} {ps : List Property} {qs : List Param} {body : List Stmt}
    (hp : (orderByOptional ps).mapM PyGen.param = .ok qs) (hb : (orderByOptional ps).mapM PyGen.keep = .ok body)
    (hself : c!"self" ∉ attrs ps) (s : St) :
    ∃ q, construct L call ⟨name, some ⟨c!"__init__", qs, block body⟩⟩ (kwActual (nones ps)) s =
      (.ok (.addr s.heap.length), s.push (.inst name q)) ∧ NoneAttrs (attrs ps) [] q := by
  obtain ⟨h1, h2, h3⟩ := nones_bound hp
  have hbind := bindArgs_kw (val := fun _ => .none) h1 h2
  rw [construct, bind_ok (alloc_run s _)]
  simp only
  have : bindArgs qs (kwActual (nones ps)) = some (qs.map fun p => (p.name, PV.none)) := hbind
  rw [this]
  simp only
  obtain ⟨q, h4, h5⟩ := keeps_run (L := L) (call := call) (a := s.heap.length) (cn := name) _ _ hb
    ⟨(s.push (.inst name [])).heap, fun x => ((c!"self", PV.addr s.heap.length) :: qs.map fun p => (p.name, PV.none)).lookup x⟩
    [] (by simp) (push_self s _) (fun p hp => by
      have e : (attr p == c!"self") = false := by
        rw [beq_eq_false_iff_ne]
        intro e
        exact hself (e ▸ List.mem_map.2 ⟨p, mem_order.1 hp, rfl⟩)
      show List.lookup _ _ = _
      rw [List.lookup_cons, e]
      exact lookup_map_none (val := fun _ => .none) (by rw [h3]; exact List.mem_map.2 ⟨p, hp, rfl⟩))
  refine ⟨q, ?_, h5.order⟩
  have hr : run L call (block body) ((c!"self", .addr s.heap.length) :: qs.map fun p => (p.name, PV.none))
      (s.push (.inst name [])) = (.ok .none, s.push (.inst name q)) := by
    rw [run, h4]
    simp only [St.write, St.push]
    simp
  rw [bind_ok hr]
  rfl

theorem construct_embed {e : Embed} {c : ClassDef} (h : PyGen.defineEmbed e = .ok c) (hself : c!"self" ∉ attrs e.properties)
    (s : St) : c.name = idOf e.name ∧ ∃ q, construct L call c (kwActual (nones e.properties)) s =
      (.ok (.addr s.heap.length), s.push (.inst (idOf e.name) q)) ∧ NoneAttrs (attrs e.properties) [] q := by
  obtain ⟨n, hn, h⟩ := ok_bind h
  have hn' := PyCode.idOf_eq hn
  subst hn'
  split at h
  · rename_i h0
    cases h
    have h0' : e.properties = [] := List.length_eq_zero_iff.1 h0
    refine ⟨rfl, [], ?_, fun x => by simp [h0', attrs]⟩
    rw [construct, bind_ok (alloc_run s _), h0']
    rfl
  · obtain ⟨qs, hq, h⟩ := ok_bind h
    obtain ⟨body, hb, h⟩ := ok_bind h
    cases h
    exact ⟨rfl, construct_plain hq hb hself s⟩

theorem construct_class {c : Class} {d : ClassDef} (h : PyGen.defineClass c = .ok d) (hself : c!"self" ∉ attrs c.properties)
    (hid : c!"id" ∉ attrs c.properties) (id : PV) (s : St) :
    d.name = idOf c.name ∧ ∃ q, construct L call d (kwActual ((c!"id", id) :: nones c.properties)) s =
      (.ok (.addr s.heap.length), s.push (.inst (idOf c.name) q)) ∧ NoneAttrs (attrs c.properties) [(c!"id", id)] q := by
  obtain ⟨n, hn, h⟩ := ok_bind h
  have hn' := PyCode.idOf_eq hn
  subst hn'
  obtain ⟨qs, hq, h⟩ := ok_bind h
  obtain ⟨body, hb, h⟩ := ok_bind h
  cases h
  refine ⟨rfl, ?_⟩
  obtain ⟨h1, h2, h3⟩ := nones_bound hq
  have hne : ∀ q ∈ qs, q.name ≠ c!"id" := fun q hq' e => hid (by
    have : q.name ∈ qs.map (·.name) := List.mem_map.2 ⟨q, hq', rfl⟩
    rw [h3, PyCode.mem_attrs_order] at this
    exact e ▸ this)
  have hbind : bindArgs (⟨c!"id", none⟩ :: qs) (kwActual ((c!"id", id) :: nones c.properties)) =
      some ((⟨c!"id", none⟩ :: qs : List Param).map fun p => (p.name, if p.name = c!"id" then id else PV.none)) := by
    refine bindArgs_kw (val := fun x => if x = c!"id" then id else .none) (fun kw hkw => ?_) (fun q hq' => ?_)
    · rcases List.mem_cons.1 hkw with rfl | hkw
      · exact ⟨⟨c!"id", none⟩, by simp, rfl⟩
      · obtain ⟨q, hq', e⟩ := h1 kw hkw
        exact ⟨q, by simp [hq'], e⟩
    · rcases List.mem_cons.1 hq' with rfl | hq'
      · simp
      · have e : (q.name == c!"id") = false := by simpa using hne q hq'
        rw [List.lookup_cons, e, if_neg (hne q hq')]
        exact h2 q hq'
  rw [construct, bind_ok (alloc_run s _)]
  simp only
  rw [hbind]
  simp only
  let vars : List (Str × PV) := (c!"self", PV.addr s.heap.length) ::
    (⟨c!"id", none⟩ :: qs : List Param).map fun p => (p.name, if p.name = c!"id" then id else PV.none)
  let s1 : St := ⟨(s.push (.inst (idOf c.name) [])).heap, fun x => vars.lookup x⟩
  have hs1 : s1.vars c!"self" = some (.addr s.heap.length) := by simp [s1, vars]
  have hi1 : s1.vars c!"id" = some id := by simp [s1, vars, List.lookup_cons]
  have ho1 : s1.heap[s.heap.length]? = some (.inst (idOf c.name) []) := push_self s _
  have e1 : exec L call (.assign (.attr (v c!"self") c!"id") (v c!"id")) s1 =
      (.ok .normal, s1.write s.heap.length (.inst (idOf c.name) [(c!"id", id)])) := by
    rw [exec_assign (eval_name hi1), bind_ok (assign_attr hs1 ho1 _ _)]
    rfl
  obtain ⟨q, h4, h5⟩ := keeps_run (L := L) (call := call) (a := s.heap.length) (cn := idOf c.name) _ _ hb
    (s1.write s.heap.length (.inst (idOf c.name) [(c!"id", id)])) [(c!"id", id)] hs1 (write_self _ ho1) (fun p hp => by
      have hm : attr p ∈ attrs c.properties := List.mem_map.2 ⟨p, mem_order.1 hp, rfl⟩
      have e : (attr p == c!"self") = false := by
        rw [beq_eq_false_iff_ne]
        exact fun e => hself (e ▸ hm)
      have e' : attr p ≠ c!"id" := fun e => hid (e ▸ hm)
      show List.lookup _ _ = _
      rw [List.lookup_cons, e, lookup_map_none (val := fun x => if x = c!"id" then id else .none), if_neg e']
      rw [List.map_cons, h3]
      exact List.mem_cons_of_mem _ (List.mem_map.2 ⟨p, hp, rfl⟩))
  refine ⟨q, ?_, h5.order⟩
  have hr : run L call (block (.assign (.attr (v c!"self") c!"id") (v c!"id") :: body)) vars
      (s.push (.inst (idOf c.name) [])) = (.ok .none, s.push (.inst (idOf c.name) q)) := by
    rw [run]
    have : exec L call (block (.assign (.attr (v c!"self") c!"id") (v c!"id") :: body)) s1 =
      (.ok .normal, s1.write s.heap.length (.inst (idOf c.name) q)) := by
      rw [block, exec_seq e1, h4, write_write]
    rw [this]
    simp [s1, St.write, St.push]
  rw [bind_ok hr]
  rfl

theorem construct_graph {g : Graph} {d : ClassDef} (h : PyGen.defineGraph g = .ok d)
    (hself : c!"self" ∉ attrs g.properties ++ g.classes.map fun c => lower c.plural)
    (hn : (attrs g.properties ++ g.classes.map fun c => lower c.plural).Nodup) (s : St) :
    d.name = idOf g.name ∧ ∃ q, construct L call d (kwActual (nones g.properties)) s =
      (.ok (.addr s.heap.length), ⟨s.heap ++ .inst (idOf g.name) q :: dicts g.classes, s.vars⟩) ∧
      (∀ x, x ∉ (g.classes.map fun c => lower c.plural) → q.lookup x = if x ∈ attrs g.properties then some .none else none) ∧
      ∀ (i : Nat) c, g.classes[i]? = some c → q.lookup (lower c.plural) = some (.addr (s.heap.length + 1 + i)) := by
  obtain ⟨n, hnm, h⟩ := ok_bind h
  have hn' := PyCode.idOf_eq hnm
  subst hn'
  split at h
  · rename_i h0
    cases h
    simp only [Bool.and_eq_true, decide_eq_true_eq, List.length_eq_zero_iff] at h0
    refine ⟨rfl, [], ?_, fun x _ => by simp [h0.1, attrs], fun i c hc => by rw [h0.2] at hc; simp at hc⟩
    rw [construct, bind_ok (alloc_run s _), h0.1, h0.2]
    rfl
  · obtain ⟨qs, hq, h⟩ := ok_bind h
    obtain ⟨rs, hrs, h⟩ := ok_bind h
    obtain ⟨body, hb, h⟩ := ok_bind h
    obtain ⟨rest, hrest, h⟩ := ok_bind h
    cases h
    refine ⟨rfl, ?_⟩
    obtain ⟨h1, h2, h3⟩ := nones_bound hq
    have hr : rs = g.classes.map fun c => ⟨lower c.plural, some .none⟩ := by
      refine PyCode.mapM_eq_map hrs fun c y _ hy => ?_
      obtain ⟨x, hx, hy⟩ := ok_bind hy
      obtain ⟨rfl, -⟩ := PyCode.asAttribute_eq hx
      cases hy
      rfl
    have hbind : bindArgs (qs ++ rs) (kwActual (nones g.properties)) = some ((qs ++ rs).map fun p => (p.name, PV.none)) := by
      refine bindArgs_kw (val := fun _ => .none) (fun kw hkw => ?_) (fun q hq' => ?_)
      · obtain ⟨q, hq', e⟩ := h1 kw hkw
        exact ⟨q, by simp [hq'], e⟩
      · rcases List.mem_append.1 hq' with hq' | hq'
        · exact h2 q hq'
        · rw [hr] at hq'
          obtain ⟨c, _, rfl⟩ := List.mem_map.1 hq'
          simp only
          cases hl : (nones g.properties).lookup (lower c.plural) with
          | none => rfl
          | some w =>
            obtain ⟨_, _, e⟩ := List.mem_map.1 (mem_of_lookup hl)
            rw [← (Prod.mk.inj e).2]
            rfl
    rw [construct, bind_ok (alloc_run s _)]
    simp only
    rw [hbind]
    simp only
    let vars : List (Str × PV) := (c!"self", PV.addr s.heap.length) :: (qs ++ rs).map fun p => (p.name, PV.none)
    let s1 : St := ⟨(s.push (.inst (idOf g.name) [])).heap, fun x => vars.lookup x⟩
    have hs1 : s1.vars c!"self" = some (.addr s.heap.length) := by simp [s1, vars]
    have ho1 : s1.heap[s.heap.length]? = some (.inst (idOf g.name) []) := push_self s _
    have hv : ∀ x ∈ attrs g.properties ++ g.classes.map (fun c => lower c.plural), s1.vars x = some .none := by
      intro x hx
      have e : (x == c!"self") = false := by
        rw [beq_eq_false_iff_ne]
        exact fun e => hself (e ▸ hx)
      show List.lookup _ _ = _
      rw [List.lookup_cons, e]
      refine lookup_map_none (val := fun _ => .none) ?_
      rw [List.map_append, h3, hr]
      rcases List.mem_append.1 hx with hx | hx
      · exact List.mem_append_left _ (PyCode.mem_attrs_order.2 hx)
      · refine List.mem_append_right _ ?_
        rw [List.map_map]
        exact hx
    obtain ⟨q, h4, h5⟩ := keeps_run (L := L) (call := call) (a := s.heap.length) (cn := idOf g.name) _ _ hb s1 [] hs1 ho1
      (fun p hp => hv _ (List.mem_append_left _ (List.mem_map.2 ⟨p, mem_order.1 hp, rfl⟩)))
    have hn2 := (List.nodup_append.1 hn)
    obtain ⟨q', h6, h7, h8⟩ := registries_run (L := L) (call := call) (a := s.heap.length) (cn := idOf g.name) _ _ hrest
      hn2.2.1 (s1.write s.heap.length (.inst (idOf g.name) q)) q hs1 (write_self _ ho1)
      (fun c hc => hv _ (List.mem_append_right _ (List.mem_map.2 ⟨c, hc, rfl⟩)))
    refine ⟨q', ?_, fun x hx => ?_, fun i c hc => ?_⟩
    · have hr : run L call (block (body ++ rest)) vars (s.push (.inst (idOf g.name) [])) =
          (.ok .none, ⟨s.heap ++ .inst (idOf g.name) q' :: dicts g.classes, s.vars⟩) := by
        rw [run]
        have : exec L call (block (body ++ rest)) s1 = (.ok .normal, ⟨(s1.write s.heap.length (.inst (idOf g.name) q)).heap.set
            s.heap.length (.inst (idOf g.name) q') ++ dicts g.classes, s1.vars⟩) := by
          rw [exec_block_append h4, h6]
          rfl
        rw [this]
        simp [s1, St.write, St.push]
      rw [bind_ok hr]
      rfl
    · rw [h7 x hx, h5 x]
      simp only [PyCode.mem_attrs_order, List.lookup_nil]
    · rw [h8 i c hc]
      simp [s1, St.write, St.push]

end

/-! ## The program -/

/-- The program which is generated, and what is known of the schema. -/
structure Good (g : Graph) (py : ParseSchema.Py) (P : Program) : Prop where
  gen : PyGen.parser g py = .ok P
  facts : PyCode.Facts g
  ids : ((allNames g).map idOf).Nodup
  lows : ((allNames g).map lower).Nodup
  selfC : ∀ c ∈ g.classes, c!"self" ∉ attrs c.properties
  selfE : ∀ e ∈ g.embeds, c!"self" ∉ attrs e.properties
  selfG : c!"self" ∉ attrs g.properties ++ g.classes.map fun c => lower c.plural
  brace : ∀ c ∈ g.classes, Braceless c.name

section

variable {g : Graph} {py : ParseSchema.Py} {P : Program} {L : Lib} {s : St}

theorem embed_name {e : Embed} (he : e ∈ g.embeds) : e.name ∈ allNames g := by
  simp only [allNames, defNames, List.mem_append, List.mem_map]
  exact .inl (.inr ⟨e, he, rfl⟩)

theorem class_name {c : Class} (hc : c ∈ g.classes) : c.name ∈ allNames g := by
  simp only [allNames, defNames, List.mem_append, List.mem_map]
  exact .inl (.inl ⟨c, hc, rfl⟩)

theorem graph_name : g.name ∈ allNames g := by simp [allNames]

theorem Good.parts (G : Good g py P) : PyGen.types g = .ok P.types ∧ PyGen.parse g = .ok P.parse ∧
    PyGen.fromJsonable g py = .ok P.own := by
  obtain ⟨a, h1, h⟩ := ok_bind G.gen
  obtain ⟨b, h2, h⟩ := ok_bind h
  obtain ⟨c, h3, h⟩ := ok_bind h
  cases h
  exact ⟨h1, h2, h3⟩

/-- The definitions of the types -/
theorem Good.types (G : Good g py P) : ∃ cs es d, g.classes.mapM PyGen.defineClass = .ok cs ∧
    g.embeds.mapM PyGen.defineEmbed = .ok es ∧ PyGen.defineGraph g = .ok d ∧ P.types = cs ++ es ++ [d] := by
  obtain ⟨cs, h1, h⟩ := ok_bind G.parts.1
  obtain ⟨es, h2, h⟩ := ok_bind h
  obtain ⟨d, h3, h⟩ := ok_bind h
  exact ⟨cs, es, d, h1, h2, h3, (Except.ok.inj h).symm⟩

/-- The functions of `parse` -/
theorem Good.parse (G : Good g py P) : ∃ es cs f, g.embeds.mapM (fun e => PyGen.placeholder e.name e.properties) = .ok es ∧
    g.classes.mapM PyGen.placeholderClass = .ok cs ∧ PyGen.placeholder g.name g.properties = .ok f ∧
    P.parse = es ++ cs ++ [f] := by
  obtain ⟨cs, h1, h⟩ := ok_bind G.parts.2.1
  obtain ⟨es, h2, h⟩ := ok_bind h
  obtain ⟨d, h3, h⟩ := ok_bind h
  exact ⟨cs, es, d, h1, h2, h3, (Except.ok.inj h).symm⟩

/-- The functions of `fromjsonable` -/
theorem Good.own (G : Good g py P) : ∃ cs es f,
    g.classes.mapM (fun c => PyGen.parseComposite g py (.cls c.name) c.name true) = .ok cs ∧
    g.embeds.mapM (fun e => PyGen.parseComposite g py (.embed e.name) e.name false) = .ok es ∧
    PyGen.parseGraph g py = .ok f ∧ P.own = cs.flatten ++ es.flatten ++ [f] := by
  obtain ⟨cs, h1, h⟩ := ok_bind G.parts.2.2
  obtain ⟨es, h2, h⟩ := ok_bind h
  obtain ⟨d, h3, h⟩ := ok_bind h
  exact ⟨cs, es, d, h1, h2, h3, (Except.ok.inj h).symm⟩

theorem mapM_names {α β γ : Type} {f : α → Except Exc β} {k : β → γ} {m : α → γ} {l : List α} {ys : List β}
    (h : l.mapM f = .ok ys) (hf : ∀ a ∈ l, ∀ y, f a = .ok y → k y = m a) : ys.map k = l.map m := by
  induction l generalizing ys with
  | nil => rw [GoCode.mapM_nil] at h; cases h; rfl
  | cons a l ih =>
    obtain ⟨y, ys', h1, h2, rfl⟩ := GoCode.mapM_cons h
    rw [List.map_cons, List.map_cons, hf a (by simp) y h1, ih h2 fun a ha => hf a (by simp [ha])]

theorem defineClass_name {c : Class} {d : ClassDef} (h : PyGen.defineClass c = .ok d) : d.name = idOf c.name := by
  obtain ⟨n, hn, h⟩ := ok_bind h
  obtain ⟨_, _, h⟩ := ok_bind h
  obtain ⟨_, _, h⟩ := ok_bind h
  cases h
  exact (PyCode.idOf_eq hn).symm

theorem defineEmbed_name {e : Embed} {d : ClassDef} (h : PyGen.defineEmbed e = .ok d) : d.name = idOf e.name := by
  obtain ⟨n, hn, h⟩ := ok_bind h
  split at h
  · cases h
    exact (PyCode.idOf_eq hn).symm
  · obtain ⟨_, _, h⟩ := ok_bind h
    obtain ⟨_, _, h⟩ := ok_bind h
    cases h
    exact (PyCode.idOf_eq hn).symm

theorem defineGraph_name {d : ClassDef} (h : PyGen.defineGraph g = .ok d) : d.name = idOf g.name := by
  obtain ⟨n, hn, h⟩ := ok_bind h
  split at h
  · cases h
    exact (PyCode.idOf_eq hn).symm
  · obtain ⟨_, _, h⟩ := ok_bind h
    obtain ⟨_, _, h⟩ := ok_bind h
    obtain ⟨_, _, h⟩ := ok_bind h
    obtain ⟨_, _, h⟩ := ok_bind h
    cases h
    exact (PyCode.idOf_eq hn).symm

theorem Good.find_type (G : Good g py P) {d : ClassDef} (hd : d ∈ P.types) : findLast (·.name) P.types d.name = some d := by
  obtain ⟨cs, es, dg, h1, h2, h3, h4⟩ := G.types
  refine findLast_unique hd fun b hb e => nodup_inj (f := (·.name)) ?_ hb hd e
  rw [h4]
  have e : (cs ++ es ++ [dg]).map (·.name) = (allNames g).map idOf := by
    simp only [List.map_append, allNames, defNames, List.map_map, List.map_cons, List.map_nil,
      mapM_names h1 fun _ _ _ => defineClass_name, mapM_names h2 fun _ _ _ => defineEmbed_name, defineGraph_name h3]
    rfl
  rw [e]
  exact G.ids

theorem placeholderClass_name {c : Class} {f : Func} (h : PyGen.placeholderClass c = .ok f) :
    f.name = c!"placeholder_" ++ lower c.name := by
  obtain ⟨n, hn, h⟩ := ok_bind h
  obtain ⟨rfl, -⟩ := PyCode.asVariable_eq hn
  obtain ⟨_, _, h⟩ := ok_bind h
  obtain ⟨_, _, h⟩ := ok_bind h
  cases h
  rfl

theorem placeholder_name {name : Str} {ps : List Property} {f : Func} (h : PyGen.placeholder name ps = .ok f) :
    f.name = c!"placeholder_" ++ lower name := by
  obtain ⟨n, hn, h⟩ := ok_bind h
  obtain ⟨rfl, -⟩ := PyCode.asVariable_eq hn
  obtain ⟨_, _, h⟩ := ok_bind h
  obtain ⟨_, _, h⟩ := ok_bind h
  cases h
  rfl

theorem nodup_map_inj {α : Type} {f : α → Str} (hf : ∀ a b, f a = f b → a = b) {l : List α} (h : l.Nodup) :
    (l.map f).Nodup := by
  induction l with
  | nil => exact List.nodup_nil
  | cons a l ih =>
    rw [List.nodup_cons] at h
    rw [List.map_cons, List.nodup_cons]
    refine ⟨fun hm => ?_, ih h.2⟩
    obtain ⟨b, hb, e⟩ := List.mem_map.1 hm
    exact h.1 (hf b a e ▸ hb)

theorem Good.find_parse (G : Good g py P) {f : Func} (hf : f ∈ P.parse) : findLast (·.name) P.parse f.name = some f := by
  obtain ⟨es, cs, fg, h1, h2, h3, h4⟩ := G.parse
  refine findLast_unique hf fun b hb e => nodup_inj (f := (·.name)) ?_ hb hf e
  rw [h4]
  have e : (es ++ cs ++ [fg]).map (·.name) =
      ((g.embeds.map (fun e => lower e.name) ++ g.classes.map (fun c => lower c.name)) ++ [lower g.name]).map
        (c!"placeholder_" ++ ·) := by
    simp only [List.map_append, List.map_map, List.map_cons, List.map_nil, mapM_names h1 fun _ _ _ => placeholder_name,
      mapM_names h2 fun _ _ _ => placeholderClass_name, placeholder_name h3]
    rfl
  rw [e]
  refine nodup_map_inj (fun a b e => List.append_cancel_left e) ?_
  have := G.lows
  simp only [allNames, defNames, List.map_append, List.map_map, List.map_cons, List.map_nil, Function.comp_def] at this
  exact (List.Perm.append_right _ List.perm_append_comm).nodup_iff.1 this

def twoNames (n : Str) : List Str := [c!"_" ++ lower n ++ c!"_from", lower n ++ c!"_from"]

/-- The functions for a composite -/
theorem composite_names {o : Owner} {name : Str} {b : Bool} {fs : List Func} (h : PyGen.parseComposite g py o name b = .ok fs) :
    fs.map (·.name) = twoNames name := by
  obtain ⟨_, _, h⟩ := ok_bind h
  obtain ⟨_, _, h⟩ := ok_bind h
  obtain ⟨_, _, h⟩ := ok_bind h
  obtain ⟨n, hn, h⟩ := ok_bind h
  obtain ⟨rfl, -⟩ := PyCode.asVariable_eq hn
  cases h
  rfl

theorem twoNames_nodup : ∀ {ns : List Str}, (ns.map lower).Nodup → (∀ n ∈ ns, ∀ y, lower n ≠ '_' :: y) →
    (ns.flatMap twoNames).Nodup
  | [], _, _ => List.nodup_nil
  | n :: ns, h, hu => by
    rw [List.map_cons, List.nodup_cons] at h
    rw [List.flatMap_cons, List.nodup_append]
    refine ⟨?_, twoNames_nodup h.2 fun n hn => hu n (by simp [hn]), ?_⟩
    · simp only [twoNames, List.nodup_cons, List.mem_singleton, List.not_mem_nil, not_false_eq_true, List.nodup_nil, and_true]
      intro e
      have := List.append_cancel_right e
      exact hu n (by simp) (lower n) this.symm
    · intro a ha b hb e
      subst e
      obtain ⟨m, hm, hb⟩ := List.mem_flatMap.1 hb
      have hne : lower n ≠ lower m := fun e => h.1 (e ▸ List.mem_map.2 ⟨m, hm, rfl⟩)
      simp only [twoNames, List.mem_cons, List.not_mem_nil, or_false] at ha hb
      rcases ha with rfl | rfl <;> rcases hb with e | e
      · exact hne (List.append_cancel_left (List.append_cancel_right e))
      · exact hu m (by simp [hm]) _ (List.append_cancel_right e).symm
      · exact hu n (by simp) _ (List.append_cancel_right e)
      · exact hne (List.append_cancel_right e)

theorem flatten_names {α : Type} {f : α → Except Exc (List Func)} {k : α → Str} {l : List α} {ys : List (List Func)}
    (h : l.mapM f = .ok ys) (hf : ∀ a ∈ l, ∀ y, f a = .ok y → y.map (·.name) = twoNames (k a)) :
    ys.flatten.map (·.name) = (l.map k).flatMap twoNames := by
  induction l generalizing ys with
  | nil => rw [GoCode.mapM_nil] at h; cases h; rfl
  | cons a l ih =>
    obtain ⟨y, ys', h1, h2, rfl⟩ := GoCode.mapM_cons h
    rw [List.flatten_cons, List.map_append, List.map_cons, List.flatMap_cons, hf a (by simp) y h1,
      ih h2 fun a ha => hf a (by simp [ha])]

theorem parseGraph_name {f : Func} (h : PyGen.parseGraph g py = .ok f) : f.name = lower g.name ++ c!"_from" := by
  obtain ⟨_, _, h⟩ := ok_bind h
  obtain ⟨n, hn, h⟩ := ok_bind h
  obtain ⟨rfl, -⟩ := PyCode.asVariable_eq hn
  obtain ⟨_, _, h⟩ := ok_bind h
  obtain ⟨_, _, h⟩ := ok_bind h
  cases h
  rfl

theorem Good.find_own (G : Good g py P) {f : Func} (hf : f ∈ P.own) : findLast (·.name) P.own f.name = some f := by
  obtain ⟨cs, es, fg, h1, h2, h3, h4⟩ := G.own
  refine findLast_unique hf fun b hb e => nodup_inj (f := (·.name)) ?_ hb hf e
  rw [h4]
  have e : (cs.flatten ++ es.flatten ++ [fg]).map (·.name) = (defNames g).flatMap twoNames ++ [lower g.name ++ c!"_from"] := by
    rw [List.map_append, List.map_append, flatten_names h1 fun _ _ _ => composite_names,
      flatten_names h2 fun _ _ _ => composite_names, List.map_cons, List.map_nil, parseGraph_name h3, defNames,
      List.flatMap_append]
  rw [e]
  have hl := G.lows
  rw [allNames, List.map_append, List.nodup_append] at hl
  rw [List.nodup_append]
  refine ⟨twoNames_nodup hl.1 fun n hn => G.facts.letter (List.mem_append_left _ hn), by simp, ?_⟩
  intro a ha b hb e
  subst e
  simp only [List.mem_singleton] at hb
  subst hb
  obtain ⟨m, hm, hb⟩ := List.mem_flatMap.1 ha
  simp only [twoNames, List.mem_cons, List.not_mem_nil, or_false] at hb
  rcases hb with e | e
  · exact G.facts.letter graph_name _ (List.append_cancel_right e)
  · exact hl.2.2 (lower m) (List.mem_map.2 ⟨m, hm, rfl⟩) (lower g.name) (by simp) (List.append_cancel_right e).symm

/-! ## Placeholders -/

theorem callClass_run (G : Good g py P) {d : ClassDef} (hd : d ∈ P.types) (args : Actual) :
    callClass L P d.name args = construct L callNothing d args := by
  rw [callClass, G.find_type hd]

theorem ret_class (G : Good g py P) {d : ClassDef} (hd : d ∈ P.types) {es : List (Str × Expr)} {kws : List (Str × PV)}
    {s s' : St} {p : PV} (hev : evalArgs L (callTypes L P) (kwargs es) s = (.ok (kwActual kws), s))
    (hq : construct L callNothing d (kwActual kws) s = (.ok p, s')) :
    exec L (callTypes L P) (.ret (.call (.cls d.name) (kwargs es))) s = (.ok (.ret p), s') := by
  rw [exec, eval]
  have : (evalArgs L (callTypes L P) (kwargs es) >>= fun vs => callTypes L P (.cls d.name) vs) s = (.ok p, s') := by
    rw [bind_ok hev, callTypes, callClass_run G hd, hq]
  rw [bind_ok this]
  rfl

theorem evalArgs_nones {call : Fn → Actual → M PV} (ps : List Property) (s : St) :
    evalArgs L call (kwargs ((PyCode.required ps).map fun p => (attr p, .none))) s = (.ok (kwActual (nones ps)), s) := by
  apply evalArgs_kwargs
  rw [nones]
  induction PyCode.required ps with
  | nil => exact .nil
  | cons p ps ih => exact .cons ⟨rfl, by rw [eval]; rfl⟩ ih

/-- The frame of a function with the arguments -/
def frame (s : St) (vars : List (Str × PV)) : St := ⟨s.heap, fun x => vars.lookup x⟩

/-- The placeholder of an embed -/
theorem placeholder_embed (G : Good g py P) {e : Embed} (he : e ∈ g.embeds) (s : St) : ∃ q,
    callParse L P (c!"placeholder_" ++ lower e.name) [] s = (.ok (.addr s.heap.length), s.push (.inst (idOf e.name) q)) ∧
      NoneAttrs (attrs e.properties) [] q := by
  obtain ⟨es, cs, fg, h1, h2, h3, h4⟩ := G.parse
  obtain ⟨f, hf, hp⟩ := GoCode.mapM_mem' h1 he
  have hfm : f ∈ P.parse := by rw [h4]; simp [hf]
  have hfind := G.find_parse hfm
  rw [placeholder_name hp] at hfind
  obtain ⟨ds, des, dg, t1, t2, t3, t4⟩ := G.types
  obtain ⟨d, hd, hdef⟩ := GoCode.mapM_mem' t2 he
  have hdm : d ∈ P.types := by rw [t4]; simp [hd]
  obtain ⟨hname, q, hq, hN⟩ := construct_embed (L := L) (call := callNothing) hdef (G.selfE e he) (frame s [])
  refine ⟨q, ?_, hN⟩
  rw [callParse, hfind]
  obtain ⟨n, hn, hp⟩ := ok_bind hp
  obtain ⟨n', hn', hp⟩ := ok_bind hp
  obtain ⟨as, has, hp⟩ := ok_bind hp
  cases hp
  have hid := PyCode.idOf_eq hn'
  subst hid
  rw [noneArgs_map has]
  have hex := ret_class G hdm (evalArgs_nones e.properties _) hq
  rw [hname] at hex
  show run L (callTypes L P) _ [] s = _
  rw [run]
  rw [frame] at hex
  rw [hex]
  rfl

/-- The placeholder of the instance of a class -/
theorem placeholder_class (G : Good g py P) {c : Class} (hc : c ∈ g.classes) (id : PV) (s : St) : ∃ q,
    callParse L P (c!"placeholder_" ++ lower c.name) [(some c!"id", id)] s =
      (.ok (.addr s.heap.length), s.push (.inst (idOf c.name) q)) ∧ NoneAttrs (attrs c.properties) [(c!"id", id)] q := by
  obtain ⟨es, cs, fg, h1, h2, h3, h4⟩ := G.parse
  obtain ⟨f, hf, hp⟩ := GoCode.mapM_mem' h2 hc
  have hfm : f ∈ P.parse := by rw [h4]; simp [hf]
  have hfind := G.find_parse hfm
  rw [placeholderClass_name hp] at hfind
  obtain ⟨ds, des, dg, t1, t2, t3, t4⟩ := G.types
  obtain ⟨d, hd, hdef⟩ := GoCode.mapM_mem' t1 hc
  have hdm : d ∈ P.types := by rw [t4]; simp [hd]
  obtain ⟨hname, q, hq, hN⟩ := construct_class (L := L) (call := callNothing) hdef (G.selfC c hc) (G.facts.cls c hc).2 id
    (frame s [(c!"id", id)])
  refine ⟨q, ?_, hN⟩
  rw [callParse, hfind]
  obtain ⟨n, hn, hp⟩ := ok_bind hp
  obtain ⟨n', hn', hp⟩ := ok_bind hp
  obtain ⟨as, has, hp⟩ := ok_bind hp
  cases hp
  have hid := PyCode.idOf_eq hn'
  subst hid
  rw [noneArgs_map has]
  have hev : evalArgs L (callTypes L P) (kwargs ((c!"id", v c!"id") :: (PyCode.required c.properties).map fun p => (attr p, .none)))
      (frame s [(c!"id", id)]) = (.ok (kwActual ((c!"id", id) :: nones c.properties)), frame s [(c!"id", id)]) := by
    rw [kwargs, evalArgs, bind_ok (eval_name (p := id) (by simp [frame])), bind_ok (evalArgs_nones _ _)]
    rfl
  have hex := ret_class G hdm hev hq
  rw [hname] at hex
  show run L (callTypes L P) _ [(c!"id", id)] s = _
  rw [run]
  rw [frame] at hex
  rw [hex]
  rfl

/-- The placeholder of the graph -/
theorem placeholder_graph (G : Good g py P) (s : St) : ∃ q,
    callParse L P (c!"placeholder_" ++ lower g.name) [] s =
      (.ok (.addr s.heap.length), ⟨s.heap ++ .inst (idOf g.name) q :: dicts g.classes, s.vars⟩) ∧
      (∀ x, x ∉ (g.classes.map fun c => lower c.plural) → q.lookup x = if x ∈ attrs g.properties then some .none else none) ∧
      ∀ (i : Nat) c, g.classes[i]? = some c → q.lookup (lower c.plural) = some (.addr (s.heap.length + 1 + i)) := by
  obtain ⟨es, cs, fg, h1, h2, hp, h4⟩ := G.parse
  have hfm : fg ∈ P.parse := by rw [h4]; simp
  have hfind := G.find_parse hfm
  rw [placeholder_name hp] at hfind
  obtain ⟨ds, des, dg, t1, t2, hdef, t4⟩ := G.types
  have hdm : dg ∈ P.types := by rw [t4]; simp
  obtain ⟨hname, q, hq, hN⟩ := construct_graph (L := L) (call := callNothing) hdef G.selfG G.facts.graph (frame s [])
  refine ⟨q, ?_, hN⟩
  rw [callParse, hfind]
  obtain ⟨n, hn, hp⟩ := ok_bind hp
  obtain ⟨n', hn', hp⟩ := ok_bind hp
  obtain ⟨as, has, hp⟩ := ok_bind hp
  cases hp
  have hid := PyCode.idOf_eq hn'
  subst hid
  rw [noneArgs_map has]
  have hex := ret_class G hdm (evalArgs_nones g.properties _) hq
  rw [hname] at hex
  show run L (callTypes L P) _ [] s = _
  rw [run]
  rw [frame] at hex
  rw [hex]

end

end Mapry.PyExec
