import Verif.GoReadInstances

/-!
# The generated Go code which parses the graph
-/

namespace Mapry.GoExec

open Mapry.GoLang Mapry.GoGen Mapry.Naming
open Mapry.GoRuntime (JVal Lib field goName registryKey sub isPointer parseTy Instance GraphVal parseRegistries preallocIds prealloc
  preallocAll zeroFields newGraph envOf)
open Mapry.GoRuntime.Spec (Canon)
open Mapry.GoCode (Name v vi own)
open Mapry.GoMap (Ascending)

/-! ## What has been built is the graph -/

section
variable {g : Graph} {reg : Str → Str → Option Addr} {σ : St} {lo : Nat}

mutual

theorem Built.holds (hid : ∀ c s a, reg c s = some a → σ.read ⟨a.loc, a.path ++ [.field c!"ID"]⟩ = some (.str s)) :
    ∀ {t : Ty} {x : Val} {y : GV}, Built g reg σ.heap lo t x y → Holds g σ t x y
  | _, _, _, .boolean b => .boolean b
  | _, _, _, .integer bd i => .integer bd i
  | _, _, _, .float bd f => .float bd f
  | _, _, _, .string p s => .string p s
  | _, _, _, .path p s => .path p s
  | _, _, _, .date f t => .date f t
  | _, _, _, .time f t => .time f t
  | _, _, _, .datetime f t => .datetime f t
  | _, _, _, .zone s => .zone s
  | _, _, _, .duration d => .duration d
  | _, _, _, .array _ h2 h3 h4 => .array h2 h3 fun i x y hx hy => Built.holds hid (h4 i x y hx hy)
  | _, _, _, .map _ h2 h3 h4 => .map h2 h3 fun i x y hx hy => Built.holds hid (h4 i x y hx hy)
  | _, _, _, .cls h => .cls (hid _ _ _ h)
  | _, _, _, .embed V w h1 h2 h3 h4 => .embed V w h1 h2 h3 fun p hp => BuiltProp.holds hid (h4 p hp)

theorem BuiltProp.holds (hid : ∀ c s a, reg c s = some a → σ.read ⟨a.loc, a.path ++ [.field c!"ID"]⟩ = some (.str s)) :
    ∀ {p : Property} {x : Val} {y : GV}, BuiltProp g reg σ.heap lo p x y → HoldsProp g σ p x y
  | _, _, _, .direct h1 h2 => .direct h1 (Built.holds hid h2)
  | p, x, _, .none h1 h2 => by
    cases ht : isPointer p.ty with
    | false => exact .none h1 ht h2
    | true =>
      refine .direct (.inr ht) ?_
      cases hty : p.ty <;> rw [hty] at ht <;> first | cases ht | skip
      · exact .zoneNil h2
      · exact .arrayNil h2
      · exact .mapNil h2
      · exact .clsNil h2
  | _, _, _, .some h1 h2 _ h4 h5 => .some h1 h2 (by
      unfold St.read
      rw [h4]
      rfl) (Built.holds hid h5)

end

end

/-- Maps with the same keys -/
theorem ascending_keys {α β : Type} {xs : GoMap α} {ys : GoMap β} (hx : Ascending xs) (hy : Ascending ys)
    (h : ∀ s, (xs.lookup s).isSome = (ys.lookup s).isSome) : xs.map (·.1) = ys.map (·.1) := by
  have key : ∀ {γ : Type} (zs : GoMap γ) (s : Str), (zs.map fun e => (e.1, ())).lookup s = (zs.lookup s).map fun _ => () := by
    intro γ zs s
    induction zs with
    | nil => rfl
    | cons e zs ih =>
      rw [List.map_cons, List.lookup_cons, List.lookup_cons]
      cases s == e.1 <;> simp [ih]
  have hasc : ∀ {γ : Type} {zs : GoMap γ}, Ascending zs → Ascending (zs.map fun e => (e.1, ())) := by
    intro γ zs hz
    unfold Ascending at hz ⊢
    rw [List.pairwise_map]
    exact hz
  have := (hasc hx).ext (hasc hy) fun s => by
    rw [key, key]
    have := h s
    cases h1 : xs.lookup s <;> cases h2 : ys.lookup s <;> simp_all
  have h3 := congrArg (List.map (·.1)) this
  simpa [Function.comp_def] using h3

/-- The registry of a class whose instances have been parsed -/
theorem registry_built {g : Graph} {reg : Str → Str → Option Addr} {σ : St} {lo lo' : Nat} {c : Class} {w : Val} {R : GoMap Instance}
    (hid : ∀ c s a, reg c s = some a → σ.read ⟨a.loc, a.path ++ [.field c!"ID"]⟩ = some (.str s))
    (ht : TableOk reg lo σ.heap c.name w) (ha : Ascending R) (hs : ∀ s, (R.lookup s).isSome = (reg c.name s).isSome)
    (hroot : ∀ s a, reg c.name s = some a → ∃ k, a = ⟨k, []⟩)
    (hb : ∀ s k, reg c.name s = some ⟨k, []⟩ → ∃ inst, R.lookup s = some inst ∧ InstBuilt g reg σ.heap lo' c s k inst) :
    HoldsRegistry g σ c w R := by
  rcases ht with ⟨rfl, h⟩ | ⟨m, tbl, rfl, _, h2, h3, h4⟩
  · cases R with
    | nil => exact .nil rfl
    | cons e R =>
      have := hs e.1
      rw [h, List.lookup_cons_self] at this
      cases this
  · have hk : tbl.map (·.1) = R.map (·.1) := ascending_keys h3 ha fun s => by rw [h4, Option.isSome_map, hs]
    refine .map h2 h3.nodup (entries_of hk fun i x y hx hy => ?_)
    have h5 := GoMap.lookup_of_mem (m := tbl) h3.nodup (List.mem_of_getElem? hx)
    have h6 := GoMap.lookup_of_mem (m := R) ha.nodup (List.mem_of_getElem? hy)
    have hxy : x.1 = y.1 := by
      have := congrArg (·[i]?) hk
      simpa [hx, hy] using this
    rw [h4] at h5
    cases hr : reg c.name x.1 with
    | none => rw [hr] at h5; cases h5
    | some a =>
      rw [hr] at h5
      obtain ⟨k, rfl⟩ := hroot _ _ hr
      obtain ⟨inst, h7, h8, xi, h9, h10, h11⟩ := hb _ k hr
      rw [hxy, h6] at h7
      cases h7
      refine ⟨⟨k, []⟩, xi, (Option.some.inj h5).symm, ?_, by rw [h8]; exact h10, fun p hp => ?_⟩
      · unfold St.read
        rw [h9]
        rfl
      · obtain ⟨w, z, k1, k2, k3⟩ := h11 p hp
        exact ⟨w, z, k1, k2, k3.holds hid⟩

/-! ## The errors of the allocation -/

theorem preallocIds_empty {L : Lib} {c : Class} {r : Str} : ∀ {ids : List Str} {acc : GoMap Instance} {st : GoRuntime.St},
    (preallocIds L c r ids acc st).2.errors.empty = true → st.errors.empty = true
  | [], _, _, h => h
  | id :: ids, acc, st, h => by
    rw [preallocIds] at h
    split at h
    · exact preallocIds_empty h
    · have := preallocIds_empty h
      rw [show (st.add r _).errors.empty = false from add_empty _ _] at this
      cases this

theorem prealloc_empty {O : Order} {L : Lib} {kvs : List (Str × JVal)} {r : Str} {c : Class} {regs : List (Str × GoMap Instance)}
    {st : GoRuntime.St} (h : (prealloc O L kvs r c regs st).2.errors.empty = true) : st.errors.empty = true ∧
      ∀ j, kvs.lookup (registryKey c) = some j → ∃ es, j = .obj es := by
  unfold prealloc at h
  cases hk : kvs.lookup (registryKey c) with
  | none =>
    rw [hk] at h
    exact ⟨h, nofun⟩
  | some j =>
    rw [hk] at h
    cases j with
    | obj es =>
      refine ⟨(preallocIds_empty h : _), fun j hj => ?_⟩
      cases hj
      exact ⟨es, rfl⟩
    | _ =>
      exact absurd (show (GoRuntime.St.add st _ _).errors.empty = true from h) (by
        rw [show (GoRuntime.St.add st _ _).errors.empty = false from add_empty _ _]; simp)

theorem preallocAll_empty {O : Order} {L : Lib} {kvs : List (Str × JVal)} {r : Str} : ∀ {cs : List Class}
    {regs : List (Str × GoMap Instance)} {st : GoRuntime.St}, (preallocAll O L kvs r cs regs st).2.errors.empty = true →
      st.errors.empty = true ∧ ∀ c ∈ cs, ∀ j, kvs.lookup (registryKey c) = some j → ∃ es, j = .obj es
  | [], _, _, h => ⟨h, nofun⟩
  | c :: cs, regs, st, h => by
    rw [preallocAll] at h
    obtain ⟨h1, h2⟩ := preallocAll_empty h
    obtain ⟨h3, h4⟩ := prealloc_empty h1
    refine ⟨h3, fun d hd => ?_⟩
    rcases List.mem_cons.1 hd with rfl | hd
    · exact h4
    · exact h2 d hd

theorem mem_keys {α : Type} {s : Str} : ∀ {xs : GoMap α}, s ∈ xs.map (·.1) ↔ (xs.lookup s).isSome = true
  | [] => by simp
  | e :: xs => by
    rw [List.map_cons, List.mem_cons, List.lookup_cons, mem_keys (xs := xs)]
    cases h : s == e.1
    · simp only [beq_eq_false_iff_ne, ne_eq] at h
      simp [h]
    · simp only [beq_iff_eq] at h
      simp [h]

theorem Frame.trans' {T U : Nat → Prop} {h h' h'' : List Val} (f : Frame T h h') (f' : Frame U h' h'')
    (hu : ∀ a, U a → h.length ≤ a) : Frame T h h'' :=
  ⟨Nat.le_trans f.more f'.more, fun a ha hn => (f'.same a (Nat.lt_of_lt_of_le ha f.more) fun h => absurd ha (Nat.not_lt.2 (hu a h))).trans
    (f.same a ha hn)⟩

theorem part_field (f : Str) (x : Val) : part [.field f] x = fieldOf f x := by
  show (fieldOf f x).bind (part []) = fieldOf f x
  cases fieldOf f x <;> rfl

/-! ## The function -/

/-- What is known of the program with the function which parses the graph -/
structure ReaderOk (g : Graph) (P : Program) : Prop extends Reads g P where
  distinct : (g.classes.map (·.name)).Nodup
  fields : (g.properties.map field ++ g.classes.map fun c => goName c.plural).Nodup
  resolved : ∀ p ∈ g.properties, Resolved g p.ty
  graph : ∃ F ∈ P.funcs, GoGen.parseGraph g (GoCode.enumeratePatterns g) = .ok F

/-- What the function has done with the graph at the location -/
def GraphRead (g : Graph) (l : Nat) (σ : St) : Except Exc (GraphVal × GoRuntime.St) → Except Exc (List Val × St) → Prop
  | .ok (gv, st), X => ∃ σ', X = .ok ([], σ') ∧ Frame (· = l) σ.heap σ'.heap ∧ stOf σ' = st ∧
      (σ'.errors.empty = true → ∃ x, σ'.heap[l]? = some x ∧ HoldsGraph g σ' x gv)
  | .error e, X => Stops e X

theorem graph_code {g : Graph} {uids : List (Str × Nat)} {F : Func} (h : GoGen.parseGraph g uids = .ok F) : ∃ f alloc insts props,
    ucamelCase g.name = .ok f ∧ g.classes.mapM (preallocate uids) = .ok alloc ∧ g.classes.mapM (GoGen.parseInstances g) = .ok insts ∧
    GoGen.parseProps ⟨g, uids, fun c => do pure (.field (.var (v c!"target")) (← GoCode.pluralField g c))⟩ g.properties 0 = .ok props ∧
    F = ⟨f ++ c!"FromJSONable", [v c!"value", v c!"ref", v c!"target", GoCode.errors], [],
      block [preamble, castMap (some (v c!"cast")), block alloc,
        if g.classes.isEmpty then .skip else when (.not .errorsEmpty) .ret, block insts, props, .ret], .skip⟩ := by
  unfold GoGen.parseGraph at h
  cases h1 : g.classes.mapM (preallocate uids) with
  | error _ => rw [h1] at h; cases h
  | ok alloc =>
  cases h2 : g.classes.mapM (GoGen.parseInstances g) with
  | error _ => rw [h1, h2] at h; cases h
  | ok insts =>
  cases h3 : GoGen.parseProps ⟨g, uids, fun c => do pure (.field (.var (v c!"target")) (← GoCode.pluralField g c))⟩ g.properties 0 with
  | error _ => rw [h1, h2] at h; simp only [okBind] at h; rw [h3] at h; cases h
  | ok props =>
  cases h4 : ucamelCase g.name with
  | error _ => rw [h1, h2] at h; simp only [okBind] at h; rw [h3, h4] at h; cases h
  | ok f =>
  rw [h1, h2] at h
  simp only [okBind] at h
  rw [h3, h4] at h
  cases h
  exact ⟨f, alloc, insts, props, rfl, rfl, rfl, rfl, rfl⟩

theorem newGraph_lookup (cs : List Class) (c : Str) :
    ((cs.map fun c => (c.name, ([] : GoMap Instance))).lookup c).getD [] = [] := by
  induction cs with
  | nil => rfl
  | cons d cs ih =>
    rw [List.map_cons, List.lookup_cons]
    cases c == d.name
    · exact ih
    · rfl

theorem exec_after {O : Order} {L : Lib} {pats : Nat → Str} {call : Call} {ρ : Env} {σ : St} (b : Bool) : exec L pats O call
    (if b then .skip else when (.not .errorsEmpty) .ret) ρ σ = .ok (if !b && !σ.errors.empty then .ret else .next, ρ, σ) := by
  have h : eval L pats ρ σ (.not .errorsEmpty) = .ok (.bool (!σ.errors.empty)) := eval_not rfl
  cases b with
  | true => rfl
  | false =>
    cases he : σ.errors.empty with
    | true =>
      rw [he] at h
      exact exec_when_false h
    | false =>
      rw [he] at h
      simp only [Bool.false_eq_true, if_false]
      rw [exec_when_true h]
      rfl

theorem graph_read {O : Order} {L : Lib} {g : Graph} {P : Program} (hR : ReaderOk g P) (hO : O.Proper) {fuel fuel' : Nat}
    (hfuel : fuel ≤ fuel') {f : Str} (hname : ucamelCase g.name = .ok f) {j : JVal} (hj : Canon j) {r : Str} {l : Nat} {σ : St}
    (hl : σ.heap[l]? = some .zero) :
    GraphRead g l σ (GoRuntime.parseGraph O L g fuel j r (newGraph g) (stOf σ))
      (run O L P (fuel' + 2) (f ++ c!"FromJSONable") [.json j, .str r, .ptr ⟨l, []⟩, .errors] σ) := by
  obtain ⟨F, hF, hgen⟩ := hR.graph
  obtain ⟨f', alloc, insts, props, h1, halloc, hinsts, hprops, hFe⟩ := graph_code hgen
  rw [hname] at h1
  cases h1
  have hFn : F.name = f ++ c!"FromJSONable" := by rw [hFe]
  have hll := lt_of_get hl
  obtain ⟨ρ1, hb, -, hpar⟩ := bind_ok (R := fun y w => (y = v c!"value" → w = .json j) ∧ (y = v c!"ref" → w = .str r) ∧
    (y = v c!"target" → w = .ptr ⟨l, []⟩) ∧ (y = GoCode.errors → w = .errors))
    (xs := [v c!"value", v c!"ref", v c!"target", GoCode.errors]) (ws := [.json j, .str r, .ptr ⟨l, []⟩, .errors])
    (.cons ⟨fun _ => rfl, fun h => absurd h (by decide), fun h => absurd h (by decide), fun h => absurd h (by decide)⟩
      (.cons ⟨fun h => absurd h (by decide), fun _ => rfl, fun h => absurd h (by decide), fun h => absurd h (by decide)⟩
      (.cons ⟨fun h => absurd h (by decide), fun h => absurd h (by decide), fun _ => rfl, fun h => absurd h (by decide)⟩
      (.cons ⟨fun h => absurd h (by decide), fun h => absurd h (by decide), fun h => absurd h (by decide), fun _ => rfl⟩ .nil))))
    [] σ
  rw [← hFn, run_void hR.names hF (by rw [hFe]) (by rw [hFe]) (fuel' + 1) (ρ := ρ1) (by rw [hFe]; exact hb)]
  have hFb : F.body = block [preamble, castMap (some (v c!"cast")), block alloc,
        if g.classes.isEmpty then .skip else when (.not .errorsEmpty) .ret, block insts, props, .ret] := by rw [hFe]
  rw [hFb]
  clear hFb hFe hFn hb
  generalize hσ1 : ({ σ with heap := σ.heap ++ [.json j, .str r, .ptr ⟨l, []⟩, .errors] } : St) = σ1
  have hh1 : σ1.heap = σ.heap ++ [.json j, .str r, .ptr ⟨l, []⟩, .errors] := by rw [← hσ1]
  rw [← hh1] at hpar
  have hg1 : Grown σ.heap σ1.heap := by
    rw [hh1]
    exact ⟨by simp, fun k hk _ => List.getElem?_append_left hk⟩
  have hst1 : stOf σ1 = stOf σ := by rw [← hσ1]; rfl
  clear hσ1 hh1
  obtain ⟨lt, wt, hlt1, hlt2, hlt3, hlt4⟩ := hpar (v c!"target") (by simp)
  cases hlt4.2.2.1 rfl
  obtain ⟨lr, wr, hlr1, hlr2, hlr3, hlr4⟩ := hpar (v c!"ref") (by simp)
  cases hlr4.2.1 rfl
  obtain ⟨lv, wv, hlv1, hlv2, hlv3, hlv4⟩ := hpar (v c!"value") (by simp)
  cases hlv4.1 rfl
  obtain ⟨le, we, hle1, hle2, hle3, hle4⟩ := hpar GoCode.errors (by simp)
  cases hle4.2.2.2 rfl
  have hpre := preamble_ok (O := O) (L := L) (pats := P.patterns) (call := run O L P (fuel' + 1))
    (eval_var L P.patterns hlt1 hlt3) (eval_var L P.patterns hle1 hle3)
  have herr : σ1.errors = σ.errors := congrArg GoRuntime.St.errors hst1
  rw [herr] at hpre
  replace hpre : exec L P.patterns O (run O L P (fuel' + 1)) preamble ρ1 σ1 = if σ.errors.empty = true then
    .ok (.next, ρ1, σ1) else .error (.panic c!"unexpected non-empty errors") := hpre
  unfold GoRuntime.parseGraph
  cases hem : (stOf σ).errors.empty with
  | false =>
    have hem' : σ.errors.empty = false := hem
    rw [hem'] at hpre
    exact .inr (by rw [exec_stop hpre]; rfl)
  | true =>
  have hem' : σ.errors.empty = true := hem
  rw [hem', if_pos rfl] at hpre
  simp only [Bool.not_true, Bool.false_eq_true, if_false]
  rw [exec_next hpre]
  have hbad : kindVal .map j = none → GraphRead g l σ (.ok (newGraph g,
      (stOf σ).add r (L.sprintf c!"expected a map[string]interface{}, but got: %T" [j])))
      ((exec L P.patterns O (run O L P (fuel' + 1)) (block [castMap (some (v c!"cast")), block alloc,
        if g.classes.isEmpty then .skip else when (.not .errorsEmpty) .ret, block insts, props, .ret]) ρ1 σ1).map
        fun q => ([], q.2.2)) := by
    intro hk
    obtain ⟨ρ2, h2, h3, h4⟩ := castMap_bad (O := O) (L := L) (pats := P.patterns) (call := run O L P (fuel' + 1))
      (.inr rfl) hlv1 hlv3 hlr1 hlr3 hk
    rw [exec_return h4]
    refine ⟨_, rfl, Frame.grown (hg1.trans h3), ?_, fun h => ?_⟩
    · have hr1 : σ1.ranges = σ.ranges := congrArg GoRuntime.St.ranges hst1
      simp only [stOf, GoRuntime.St.add, herr, hr1]
    · have := add_empty σ1.errors ⟨r, L.sprintf c!"expected a map[string]interface{}, but got: %T" [j]⟩
      exact absurd (this.symm.trans h) (by simp)
  cases j with
  | obj kvs =>
    obtain ⟨ρ2, σ2, h1, h2, h3, h4, ⟨okc, h5, h6, h7⟩, h8⟩ := castMap_good (O := O) (L := L) (pats := P.patterns)
      (call := run O L P (fuel' + 1)) (.inr rfl) hlv1 hlv3
    obtain ⟨lc, hc1, hc2, hc3⟩ := h8 rfl
    rw [exec_next h1]
    have hold : ∀ {k w}, σ1.heap[k]? = some w → σ2.heap[k]? = some w := fun h => h2.get (fun h => h) h
    have hlt : lt < σ1.heap.length := lt_of_get hlt3
    have hlr : lr < σ1.heap.length := lt_of_get hlr3
    have hle : le < σ1.heap.length := lt_of_get hle3
    have hm1 := hg1.more
    have hm2 := h2.more
    have hokl : okc < σ2.heap.length := lt_of_get h7
    have hst2 : stOf σ2 = stOf σ := h3.trans hst1
    have hGV : GraphVars l okc r kvs ρ2 σ2.heap := by
      refine ⟨⟨lt, (h4 _ (by decide) (by decide)).trans hlt1, hold hlt3, by omega, by omega⟩,
        ⟨lr, (h4 _ (by decide) (by decide)).trans hlr1, hold hlr3, by omega, by omega⟩, ⟨lc, hc1, hc3, by omega, ?_⟩,
        ⟨le, (h4 _ (by decide) (by decide)).trans hle1, hold hle3, by omega, by omega⟩, h5, by omega, hokl⟩
      intro e
      rw [e, h7] at hc3
      cases hc3
    have hl2 : σ2.heap[l]? = some .zero := (hg1.trans h2).get (fun h => h) hl
    have hnf : (g.classes.map fun c => goName c.plural).Nodup := (List.nodup_append.1 hR.fields).2.1
    obtain ⟨ρ3, σ3, x3, reg, a1, A⟩ := classes_alloc (O := O) (L := L) (pats := P.patterns) (call := run O L P (fuel' + 1)) hR.pats
      (lo := σ2.heap.length) (l := l) (by omega) hokl g.classes alloc halloc hR.distinct hnf hR.plurals ρ2 σ2 .zero (fun _ _ => none)
      (g.classes.map fun c => (c.name, [])) hGV hl2 (fun _ _ => rfl) (Nat.le_refl _) ⟨nofun, nofun⟩ (fun _ _ _ => rfl)
      (fun c _ => newGraph_lookup _ _)
    rw [exec_next a1]
    have hafter := exec_after (O := O) (L := L) (pats := P.patterns) (call := run O L P (fuel' + 1)) (ρ := ρ3) (σ := σ3)
      g.classes.isEmpty
    have hf3 : Frame (· = l) σ.heap σ3.heap := by
      refine ⟨by have := A.frame.more; omega, fun a ha hn => (A.frame.same a (by omega) ?_).trans ((hg1.trans h2).same a ha fun h => h)⟩
      rintro (h | h)
      · exact hn h
      · omega
    show GraphRead g l σ (
      let pre := preallocAll O L kvs r g.classes (g.classes.map fun c => (c.name, [])) (stOf σ)
      if !g.classes.isEmpty && !pre.2.errors.empty then .ok (⟨zeroFields g.properties, pre.1⟩, pre.2)
      else do
        let E := envOf O L g pre.1
        let parse := parseTy E (GoRuntime.parseEmbed E fuel)
        let (r', st) ← parseRegistries O L parse kvs r g.classes pre.1 pre.2
        if r'.2 then return (⟨zeroFields g.properties, r'.1⟩, st)
        else do
          let (fields, st) ← GoRuntime.parseProps parse kvs r g.properties (zeroFields g.properties) st
          return (⟨fields, r'.1⟩, st)) _
    rw [hst2] at A
    generalize hpa : preallocAll O L kvs r g.classes (g.classes.map fun c => (c.name, [])) (stOf σ) = pre at A ⊢
    obtain ⟨regs, st⟩ := pre
    have hA := A.st
    subst hA
    cases hcond : (!g.classes.isEmpty && !σ3.errors.empty) with
    | true =>
      rw [hcond] at hafter
      rw [exec_return hafter]
      have hne : σ3.errors.empty = false := by
        rw [Bool.and_eq_true] at hcond
        cases h : σ3.errors.empty with
        | false => rfl
        | true => rw [h] at hcond; exact absurd hcond.2 (by simp)
      show GraphRead g l σ (if (!g.classes.isEmpty && !σ3.errors.empty) = true then _ else _) _
      rw [if_pos hcond]
      exact ⟨σ3, rfl, hf3, rfl, fun h => absurd (hne.symm.trans h) (by simp)⟩
    | false =>
    rw [hcond] at hafter
    rw [exec_next hafter]
    show GraphRead g l σ (if (!g.classes.isEmpty && !σ3.errors.empty) = true then _ else _) _
    rw [if_neg (by rw [hcond]; simp)]
    have hobj : ∀ c ∈ g.classes, ∀ j, kvs.lookup (registryKey c) = some j → ∃ es, j = .obj es := by
      cases hcl : g.classes with
      | nil => nofun
      | cons c cs =>
        have he : σ3.errors.empty = true := by
          rw [hcl] at hcond
          cases h : σ3.errors.empty with
          | true => rfl
          | false => rw [h] at hcond; exact absurd hcond (by simp)
        have := (preallocAll_empty (O := O) (L := L) (r := r) (kvs := kvs) (cs := g.classes)
          (regs := g.classes.map fun c => (c.name, [])) (st := stOf σ) (by rw [hpa]; exact he)).2
        rw [hcl] at this
        exact this
    have hnone : ∀ c, c ∉ g.classes.map (·.name) → ∀ s, reg c s = none := fun c hc s => (A.others c hc).2 s
    have hids : ∀ c s, s ∈ (envOf O L g regs).ids c ↔ (reg c s).isSome = true := by
      intro c s
      show s ∈ ((regs.lookup c).getD []).map (·.1) ↔ _
      by_cases hc : c ∈ g.classes.map (·.name)
      · obtain ⟨d, hd, rfl⟩ := List.mem_map.1 hc
        have := (A.pre d hd).model s
        rw [mem_keys, this, Option.isSome_map]
      · rw [(A.others c hc).1, newGraph_lookup, hnone c hc]
        simp
    have hcells := A.cells
    have hlo3 : σ2.heap.length ≤ σ3.heap.length := A.frame.more
    have hvar3 : ∀ {k w}, σ2.heap[k]? = some w → k ≠ l → k ≠ okc → σ3.heap[k]? = some w := fun h h1 h2 =>
      A.frame.get (fun h => h.elim h1 h2) h
    obtain ⟨Stt, t1, t2, t3, t4⟩ := hGV.target
    obtain ⟨Sr, r1, r2, r3, r4⟩ := hGV.ref
    obtain ⟨Sc, c1, c2, c3, c4⟩ := hGV.cast
    obtain ⟨Se, e1, e2, e3, e4⟩ := hGV.errors
    have H : Base g kvs r σ2.heap.length l σ3.heap x3 reg ρ3 := ⟨hcells, ⟨Stt, (A.vars _).trans t1, hvar3 t2 t3 t4⟩,
      ⟨Se, (A.vars _).trans e1, hvar3 e2 e3 e4⟩, A.cell, by omega, fun c hc => (A.pre c hc).table, A.own⟩
    have hinst := classes_insts (E := envOf O L g regs) hR.toReads hids hO hfuel H hj g.classes insts hinsts (fun _ h => h)
      hR.distinct hobj σ3 regs (.refl _ _) (fun c hc => ⟨(A.pre c hc).asc, (A.pre c hc).model, fun s k hk => by
        obtain ⟨k', e, _, _, h⟩ := hcells.zero _ _ _ hk
        cases e
        exact h, (A.pre c hc).keys⟩)
    have hzc : ∀ k, InstCell reg k → σ3.heap[k]? = some .zero := by
      rintro k ⟨c, s, h⟩
      obtain ⟨k', e, _, _, h'⟩ := hcells.zero _ _ _ h
      cases e
      exact h'
    have hge : ∀ k, InstCell reg k → σ2.heap.length ≤ k := by
      rintro k ⟨c, s, h⟩
      obtain ⟨k', e, h', _⟩ := hcells.zero _ _ _ h
      cases e
      exact h'
    replace hinst : RegsRead g reg σ3.heap.length g.classes ρ3 σ3 regs
      (parseRegistries O L (parseTy (envOf O L g regs) (GoRuntime.parseEmbed (envOf O L g regs) fuel)) kvs r g.classes regs (stOf σ3))
      (exec L P.patterns O (run O L P (fuel' + 1)) (block insts) ρ3 σ3) := hinst
    simp only
    generalize parseRegistries O L (parseTy (envOf O L g regs) (GoRuntime.parseEmbed (envOf O L g regs) fuel)) kvs r g.classes regs
      (stOf σ3) = m at hinst ⊢
    cases m with
    | error e =>
      rcases hinst with h | h
      · exact .inl h
      · exact .inr (by rw [exec_stop h]; rfl)
    | ok q =>
    obtain ⟨⟨regs', b⟩, st4⟩ := q
    obtain ⟨σ4, i1, i2, i3, i4, i5, i6⟩ := hinst
    subst i3
    have hi2 : Frame (InstCell reg) σ3.heap σ4.heap := i2.mono fun a _ ⟨c, _, s, h⟩ => ⟨c.name, s, h⟩
    have hf4 : Frame (· = l) σ.heap σ4.heap := by
      refine hf3.trans' hi2 fun k hk => ?_
      have := hge k hk
      omega
    simp only [okBind]
    cases b with
    | true =>
      rw [exec_return i1]
      exact ⟨σ4, rfl, hf4, rfl, fun h => absurd ((full_empty (i4 rfl)).symm.trans h) (by simp)⟩
    | false =>
    rw [exec_next i1]
    simp only [Bool.false_eq_true, if_false]
    have hx4 : σ4.heap[l]? = some x3 := hi2.get H.low_other A.cell
    have hlo4 : σ3.heap.length ≤ σ4.heap.length := hi2.more
    have hvar4 : ∀ {k w}, σ2.heap[k]? = some w → k ≠ l → k ≠ okc → σ4.heap[k]? = some w := fun {k w} h h1 h2 =>
      hi2.get (fun hk => by have := hge k hk; have := lt_of_get h; omega) (hvar3 h h1 h2)
    have htab : ∀ c ∈ g.classes, ∃ w, fieldOf (goName c.plural) x3 = some w ∧ TableOk reg σ2.heap.length σ4.heap c.name w := by
      intro c hc
      obtain ⟨w, w1, w2⟩ := (A.pre c hc).table
      exact ⟨w, w1, w2.frame hi2 (fun a ha => .inr (hzc a ha)) fun _ => rfl⟩
    have hdis : ∀ c ∈ g.classes, goName c.plural ∉ g.properties.map field := fun c hc hm =>
      (List.nodup_append.1 hR.fields).2.2 _ hm _ (List.mem_map_of_mem hc) rfl
    have hnp : (g.properties.map field).Nodup := (List.nodup_append.1 hR.fields).1
    have HP := props_read (E := envOf O L g regs) (T := (· = l)) (h₀ := σ4.heap) (reg := reg) (pats := P.patterns)
      (embed := GoRuntime.parseEmbed (envOf O L g regs) fuel)
      (call := run O L P (fuel' + 1)) (ctx := ⟨g, GoCode.enumeratePatterns g, fun c => do
        pure (.field (.var (v c!"target")) (← GoCode.pluralField g c))⟩) rfl (calls_ok hR.toReads hids fuel (fuel' + 1) (by omega))
      hR.pats hids (a := ⟨l, []⟩) (ρ₀ := ρ3) (σ₀ := σ4) (x₀ := x3) (fs := g.properties.map field) (r := r) (kvs := kvs)
      (lo := σ4.heap.length)
      ⟨⟨Stt, (A.vars _).trans t1, hvar4 t2 t3 t4, t3⟩, ⟨Sr, (A.vars _).trans r1, hvar4 r2 r3 r4, r3⟩,
        ⟨Sc, (A.vars _).trans c1, hvar4 c2 c3 c4, c3⟩⟩
      (by
        intro n ρ τ hin
        obtain ⟨hlat, cc, xx, hcc, hpc, hff⟩ := hin
        have hpe : cc = xx := Option.some.inj hpc
        subst hpe
        refine ⟨fun c e he => ?_, fun ρ' σ' hl' => ?_⟩
        · cases hpf : GoCode.pluralField g c with
          | error _ =>
            simp only [hpf] at he
            cases he
          | ok f' =>
            simp only [hpf] at he
            cases he
            obtain ⟨d, hd, rfl, rfl⟩ := plural_field hpf
            obtain ⟨w, w1, w2⟩ := htab d hd
            refine ⟨w, ?_, fun ρ' σ' hl' => ?_⟩
            · rcases w2 with ⟨h1, h2⟩ | ⟨m, tbl, h1, h2, h3, h4, h5⟩
              · exact .inl ⟨by rw [h1]; rfl, h2⟩
              · exact .inr ⟨m, tbl, h1, by omega, h3, h5⟩
            · refine (eval_field (a := ⟨l, []⟩) (I := Stt) (x := cc) ?_ ?_ ?_ ?_).1
              · exact (hl'.vars _ (old_v _ _)).trans ((hlat.vars _ (old_v _ _)).trans ((A.vars _).trans t1))
              · exact hl'.frame.get (fun h => h) (hlat.frame.get t3 (hvar4 t2 t3 t4))
              · unfold St.read
                rw [hl'.frame.get (fun h => h) hcc]
                rfl
              · rw [hff _ (hdis d hd)]
                exact w1
        · exact var_later (old_v _ _) ((hlat.vars _ (old_v _ _)).trans ((A.vars _).trans e1))
            (hlat.frame.get e3 (hvar4 e2 e3 e4)) hl')
      (.inl rfl) hj (.refl _ _) (by show l < _; omega) g.properties 0 props hprops ρ3 σ4 x3 x3 (zeroFields g.properties)
      ⟨.refl _ _ _ _, x3, x3, hx4, rfl, fun _ _ => rfl⟩ hx4 rfl hnp (fun p hp => List.mem_map_of_mem hp)
      (fun p hp => (A.fields _ fun hm => by
        obtain ⟨c, hc, e⟩ := List.mem_map.1 hm
        exact hdis c hc (by rw [e]; exact List.mem_map_of_mem hp)).trans rfl)
      (fun p hp => zeroFields_lookup hnp hp) hR.resolved (Nat.le_refl _)
    replace HP : PropsRead g reg σ4.heap.length ⟨l, []⟩ x3 x3 g.properties (zeroFields g.properties) ρ3 σ4
      (GoRuntime.parseProps (parseTy (envOf O L g regs) (GoRuntime.parseEmbed (envOf O L g regs) fuel)) kvs r g.properties
        (zeroFields g.properties) (stOf σ4))
      (exec L P.patterns O (run O L P (fuel' + 1)) props ρ3 σ4) := HP
    generalize GoRuntime.parseProps (parseTy (envOf O L g regs) (GoRuntime.parseEmbed (envOf O L g regs) fuel)) kvs r g.properties
        (zeroFields g.properties) (stOf σ4) = m at HP ⊢
    cases m with
    | error e =>
      rcases HP with h | h
      · exact .inl h
      · exact .inr (by rw [exec_stop h]; rfl)
    | ok q =>
    obtain ⟨fields, st5⟩ := q
    obtain ⟨fl, ρ5, σ5, c5, x5, p1, p2, p3, p4, p5, p6, p7, p8⟩ := HP
    obtain ⟨fl', hlast⟩ := exec_last p1
    rw [hlast]
    have hp2 : Frame (· = l) σ4.heap σ5.heap := p2.frame
    have hcx : c5 = x5 := by
      have := p5.part rfl
      exact Option.some.inj this
    subst hcx
    refine ⟨σ5, rfl, hf4.trans hp2, p3, fun hem5 => ⟨c5, p4, ?_⟩⟩
    obtain ⟨he4, hprop⟩ := p8 hem5
    obtain ⟨-, hreg⟩ := i6 he4
    have hroot : ∀ c s a, reg c s = some a → ∃ k, a = ⟨k, []⟩ := fun c s a h => by
      obtain ⟨k, e, _⟩ := hcells.zero c s a h
      exact ⟨k, e⟩
    have hkl : ∀ c s k, reg c s = some ⟨k, []⟩ → k ≠ l := fun c s k h e => by
      have := hge k ⟨c, s, h⟩
      omega
    have hb5 : ∀ c ∈ g.classes, ∀ s k, reg c.name s = some ⟨k, []⟩ → ∃ inst, ((regs'.lookup c.name).getD []).lookup s = some inst ∧
        InstBuilt g reg σ5.heap σ3.heap.length c s k inst := by
      intro c hc s k hk
      obtain ⟨inst, n1, n2⟩ := (hreg c hc).2.2 s k hk
      exact ⟨inst, n1, n2.frame hp2 (fun a ha => by have : a = l := ha; omega) (Nat.le_refl _) (hkl _ _ _ hk)⟩
    have hid : ∀ c s a, reg c s = some a → σ5.read ⟨a.loc, a.path ++ [.field c!"ID"]⟩ = some (.str s) := by
      intro c s a ha
      by_cases hc : c ∈ g.classes.map (·.name)
      · obtain ⟨d, hd, rfl⟩ := List.mem_map.1 hc
        obtain ⟨k, rfl⟩ := hroot _ _ _ ha
        obtain ⟨inst, -, -, xi, n1, n2, -⟩ := hb5 d hd s k ha
        unfold St.read
        simp only [List.nil_append]
        rw [n1]
        exact (part_field _ _).trans n2
      · rw [hnone c hc] at ha
        cases ha
    refine ⟨fun p hp => ?_, fun c hc => ?_⟩
    · obtain ⟨w, y, n1, n2, n3⟩ := hprop p hp
      exact ⟨w, y, n1, n2, n3.holds hid⟩
    · obtain ⟨w, w1, w2⟩ := htab c hc
      have ht5 : TableOk reg σ2.heap.length σ5.heap c.name w :=
        w2.frame hp2 (fun a ha => .inl (by have : a = l := ha; omega)) fun _ => rfl
      obtain ⟨n1, n2, -⟩ := hreg c hc
      exact ⟨w, (p6 _ (hdis c hc)).trans w1, registry_built hid ht5 n1 n2 (fun s a h => hroot _ _ _ h) (hb5 c hc)⟩
  | _ => exact hbad rfl

end Mapry.GoExec
