import Verif.CppReadScalar
import Verif.DurationValue

/-! # The generated C++ code which parses a value: arrays, maps, references and embeddable structures -/

namespace Mapry.CppRead

open Mapry.CppRuntime (JVal Val Time Lib TimeKind DateLib Fields setField itemsOf entriesOf entryOf)
open Mapry.CppCode (Var)
open Mapry.Duration (intStr)
open Mapry.Naming Mapry.TypeGraph
open Mapry.GoCode (referencesOf)

/-- The embeddable structures in the type are in the graph. -/
def Known (g : Graph) : Ty → Prop
  | .array y _ _ => Known g y
  | .map y => Known g y
  | .embed n => (g.embed? n).isSome = true
  | _ => True

/-- The registries are in the variables. -/
def Regs (E : CppRuntime.Env) (ctx : Ctx) (ρ : Env) : Prop :=
  ∀ c x, ctx.registry c = .ok x → (∃ a b d, x = .own a b d) ∧ ρ.lookup x = some (.registry c (E.ids c))

theorem Regs.agree {E : CppRuntime.Env} {ctx : Ctx} {ρ ρ' : Env} (h : Regs E ctx ρ) {n : Nat} (ha : Agree (Old n) ρ ρ') : Regs E ctx ρ' := by
  intro c x hx
  obtain ⟨⟨a, b, d, rfl⟩, h2⟩ := h c x hx
  exact ⟨⟨a, b, d, rfl⟩, (ha (.own a b d) trivial).trans h2⟩

/-- What a call of the function of an embeddable structure does -/
def Called (e : CppErrors) (tm x : Val) : Except Exc (Val × CppErrors) → Except Exc (Val × CppErrors) → Prop
  | .ok (t, e'), R => ∃ x', R = .ok (x', e') ∧ Ext e e' ∧ (e' = e → tm = x → x' = t)
  | .error ex, R => R = .error ex

/-- The registries which a function is given -/
def args (E : CppRuntime.Env) (refs : List Str) : List RV := refs.map fun c => .registry c (E.ids c)

/-- The functions of the embeddable structures do what the parser does. -/
def Calls (E : CppRuntime.Env) (embed : Str → CppRuntime.ParseFn) (call : Call) : Prop :=
  ∀ name f refs, (E.graph.embed? name).isSome = true → asVariable name = .ok f → referencesOf E.graph (.embed name) = .ok refs →
    ∀ j r tm x e, Room e → Called e tm x (embed name j r tm e) (call (f ++ c!"_from") name j (args E refs) r x e)

section

variable {L : Lib} {call : Call} {n : Nat} {ρ : Env} {root : Val} {x ref : Expr} {tgt : Place} {j : JVal} {r : Str} {p : Path}
  {e : CppErrors} {tm : Val}

theorem mapM_registries {E : CppRuntime.Env} {ctx : Ctx} (h : Regs E ctx ρ) : ∀ {refs : List Str} {vs : List Var},
    refs.mapM ctx.registry = .ok vs → vs.mapM (getVar ρ) = .ok (args E refs) := by
  intro refs
  induction refs with
  | nil =>
    intro vs hv
    cases hv
    rfl
  | cons c refs ih =>
    intro vs hv
    rw [List.mapM_cons] at hv
    cases h1 : ctx.registry c with
    | error a => rw [h1] at hv; cases hv
    | ok v =>
      cases h2 : refs.mapM ctx.registry with
      | error a => rw [h1, h2] at hv; cases hv
      | ok ws =>
        rw [h1, h2] at hv
        cases hv
        rw [List.mapM_cons, getVar_eq (h c v h1).2, ih h2]
        rfl

theorem embed_done {E : CppRuntime.Env} {ctx : Ctx} {embed : Str → CppRuntime.ParseFn} (hcall : Calls E embed call) (hr : Regs E ctx ρ)
    (he : Room e) (A : Args L (In n) ρ root x tgt ref j r p) {name f : Str} {refs : List Str} {vs : List Var}
    (hk : (E.graph.embed? name).isSome = true) (hf : asVariable name = .ok f) (hrefs : referencesOf E.graph (.embed name) = .ok refs)
    (hvs : refs.mapM ctx.registry = .ok vs) :
    Done p root e ρ tm (embed name j r tm e) (exec L call (.call (f ++ c!"_from") name x vs ref tgt) ⟨ρ, root, e⟩) := by
  obtain ⟨r1, hl, hr1⟩ := A.place _ .refl
  have hg : get p r1 = get p root := by
    rcases hr1 with rfl | rfl
    · rfl
    · exact get_put A.valid _
  have hp : ∀ y, put p y r1 = put p y root := fun y => by
    rcases hr1 with rfl | rfl
    · rfl
    · exact put_put A.valid _ _
  have hc := hcall name f refs hk hf hrefs j r tm (get p root) e he
  have hrun : exec L call (.call (f ++ c!"_from") name x vs ref tgt) ⟨ρ, root, e⟩ =
      (call (f ++ c!"_from") name j (args E refs) r (get p root) e).bind fun q => .ok (.next, ⟨ρ, put p q.1 root, q.2⟩) := by
    rw [exec]
    simp only [A.value _ .refl, A.ref _ .refl, hl, hg, hp, mapM_registries hr hvs, RV.toJson, RV.toStr, bind, Except.bind, pure, Except.pure]
  rw [hrun]
  cases hm : embed name j r tm e with
  | error ex =>
    rw [hm] at hc
    have hc : call (f ++ c!"_from") name j (args E refs) r (get p root) e = .error ex := hc
    rw [hc]
    rfl
  | ok q =>
    obtain ⟨t, e'⟩ := q
    rw [hm] at hc
    obtain ⟨x', h1, h2, h3⟩ := hc
    rw [h1]
    exact ⟨_, rfl, .inr ⟨x', rfl⟩, h2, fun a b => by rw [h3 a b]⟩

/-! ## Arrays -/

theorem length_of_at {p : Path} {i : Nat} {v w : Val} (h : At (p ++ [.item i]) v w) (hv : Valid p v) :
    (itemsOf (get p w)).length = (itemsOf (get p v)).length := by
  rcases h with rfl | ⟨y, rfl⟩
  · rfl
  · rw [put_snoc, get_put hv]
    simp [Step.put, itemsOf_list]

theorem setVar_head {y : Var} {v w : RV} {ρ : Env} : setVar y w ((y, v) :: ρ) = (y, w) :: ρ := by simp [setVar]

theorem setVar_skip {y z : Var} {v w : RV} {ρ : Env} (h : z ≠ y) : setVar y w ((z, v) :: ρ) = (z, v) :: setVar y w ρ := by
  simp [setVar, h]

/-- The loop over the items -/
theorem items_done {f : CppRuntime.ParseFn} {item : Stmt} {root₀ : Val} {ρt : Env} (hv₀ : Valid p root₀)
    (h : ∀ (i : Nat) (y : JVal) (w : Val) (e : CppErrors) (tm : Val), Room e → Valid p w → i < (itemsOf (get p w)).length →
      Done (p ++ [.item i]) w e ((tmp c!"item" n, .json y) :: (tmp c!"i" n, .int i) :: ρt) tm (f y (CppRuntime.sub r (Text.natStr i)) tm e)
        (exec L call item ⟨(tmp c!"item" n, .json y) :: (tmp c!"i" n, .int i) :: ρt, w, e⟩)) :
    ∀ (xs : List JVal) (ts dn : List Val) (w : Val) (e : CppErrors), Room e → ts.length = xs.length → At p root₀ w →
      (itemsOf (get p w)).length = dn.length + xs.length →
      match CppRuntime.parseItems f r dn.length xs ts e with
      | .ok (ts', e') => ∃ w' i', loop (tmp c!"item" n) (exec L call (.seq item (.seq (.incr (tmp c!"i" n)) (.ifFull .brk)))) (xs.map .json)
            ⟨(tmp c!"i" n, .int dn.length) :: ρt, w, e⟩ = .ok (.next, ⟨(tmp c!"i" n, i') :: ρt, w', e'⟩) ∧ At p root₀ w' ∧ Ext e e' ∧
          (e' = e → w = put p (.list (dn ++ ts)) root₀ → w' = put p (.list (dn ++ ts')) root₀)
      | .error ex => loop (tmp c!"item" n) (exec L call (.seq item (.seq (.incr (tmp c!"i" n)) (.ifFull .brk)))) (xs.map .json)
            ⟨(tmp c!"i" n, .int dn.length) :: ρt, w, e⟩ = .error ex := by
  intro xs
  induction xs with
  | nil =>
    intro ts dn w e he hts hat hlen
    have : ts = [] := List.length_eq_zero_iff.1 hts
    subst this
    exact ⟨w, _, rfl, hat, .refl he, fun _ hw => hw⟩
  | cons y xs ih =>
    intro ts dn w e he hts hat hlen
    cases ts with
    | nil => simp at hts
    | cons t ts =>
      have hd := h dn.length y w e t he (hat.valid hv₀) (by rw [hlen]; simp)
      rw [CppRuntime.parseItems, List.map_cons, loop]
      cases hm : f y (CppRuntime.sub r (Text.natStr dn.length)) t e with
      | error ex =>
        rw [hm] at hd
        have hd : exec L call item ⟨(tmp c!"item" n, .json y) :: (tmp c!"i" n, .int dn.length) :: ρt, w, e⟩ = .error ex := hd
        rw [exec, hd]
        rfl
      | ok q =>
        obtain ⟨t', e1⟩ := q
        rw [hm] at hd
        obtain ⟨w1, h1, h2, h3, h4⟩ := hd
        have hinc : exec L call (.incr (tmp c!"i" n)) ⟨(tmp c!"item" n, .json y) :: (tmp c!"i" n, .int dn.length) :: ρt, w1, e1⟩ =
            .ok (.next, ⟨(tmp c!"item" n, .json y) :: (tmp c!"i" n, .int (dn ++ [t']).length) :: ρt, w1, e1⟩) := by
          rw [exec, getVar_there (by simp [tmp]), getVar_here]
          simp only [RV.toInt, bind, Except.bind, pure, Except.pure]
          rw [setVar_skip (by simp [tmp]), setVar_head]
          simp
        have hat1 : At p root₀ w1 := hat.trans h2.snoc hv₀
        have hw1 : e1 = e → w = put p (.list (dn ++ t :: ts)) root₀ → w1 = put p (.list ((dn ++ [t']) ++ ts)) root₀ := by
          intro a b
          have hg : t = get (p ++ [.item dn.length]) w := by
            rw [get_snoc, b, get_put hv₀]
            simp [Step.get, itemsOf_list]
          rw [h4 a hg, put_snoc, b, get_put hv₀, put_put hv₀]
          simp [Step.put, itemsOf_list]
        have hbody : exec L call (.seq item (.seq (.incr (tmp c!"i" n)) (.ifFull .brk)))
            ⟨(tmp c!"item" n, .json y) :: (tmp c!"i" n, .int dn.length) :: ρt, w, e⟩ =
            .ok (if e1.full then .brk else .next,
              ⟨(tmp c!"item" n, .json y) :: (tmp c!"i" n, .int (dn ++ [t']).length) :: ρt, w1, e1⟩) := by
          rw [exec_seq h1, exec_seq hinc, exec]
          simp only
          cases e1.full <;> rfl
        rw [hbody]
        simp only [bind, Except.bind, pure, Except.pure, leave, St.leave, List.tail]
        cases hfull : e1.full with
        | true =>
          simp only [if_true]
          exact ⟨w1, _, rfl, hat1, h3, fun a b => by rw [hw1 a b, List.append_assoc]; rfl⟩
        | false =>
          have := ih ts (dn ++ [t']) w1 e1 (h3.room hfull) (by simpa using hts) hat1
            (by rw [length_of_at h2 (hat.valid hv₀), hlen]; simp; omega)
          have hl : (dn ++ [t']).length = dn.length + 1 := by simp
          rw [hl] at this
          simp only [hl, Bool.false_eq_true, if_false]
          cases hrest : CppRuntime.parseItems f r (dn.length + 1) xs ts e1 with
          | error ex =>
            rw [hrest] at this
            exact this
          | ok q =>
            obtain ⟨ts', e2⟩ := q
            rw [hrest] at this
            obtain ⟨w2, i2, k1, k2, k3, k4⟩ := this
            refine ⟨w2, i2, k1, k2, h3.trans k3, fun a b => ?_⟩
            have ha : e1 = e := h3.eq_of_eq k3 a
            rw [k4 (a.trans ha.symm) (hw1 ha b), List.append_assoc]
            rfl

theorem size_ok (A : Args L (In n) ρ root x tgt ref j r p) {xs : List JVal} (hj : j = .arr xs) :
    eval L ρ (.size x) = .ok (.int xs.length) := by
  subst hj
  simp [eval, A.value _ .refl, RV.toJson, sizeOf, bind, Except.bind, pure, Except.pure]

theorem array_done (he : Room e) (A : Args L (In n) ρ root x tgt ref j r p) {lo hi : Option Int} {f : CppRuntime.ParseFn} {item : Stmt}
    (h : ∀ (i : Nat) (y : JVal) (w : Val) (e : CppErrors) (tm : Val), Room e → Valid p w → i < (itemsOf (get p w)).length →
      Done (p ++ [.item i]) w e ((tmp c!"item" n, .json y) :: (tmp c!"i" n, .int i) :: (tmp c!"target" n, .place p) :: ρ) tm
        (f y (CppRuntime.sub r (Text.natStr i)) tm e)
        (exec L call item ⟨(tmp c!"item" n, .json y) :: (tmp c!"i" n, .int i) :: (tmp c!"target" n, .place p) :: ρ, w, e⟩)) :
    Done p root e ρ tm (CppRuntime.parseArray f lo hi j r tm e) (exec L call (arrayBody n ref lo hi tgt x item) ⟨ρ, root, e⟩) := by
  refine exec_expect A he (fun h => ?_) fun h' => ?_
  · cases j <;> first | rfl | (simp [isKind] at h; done)
  · cases j <;> first | (simp [isKind] at h'; done) | skip
    rename_i xs
    have hs := size_ok A rfl
    have ht : eval L ρ (.toText (.size x)) = .ok (.text (intStr xs.length)) := by
      rw [eval, hs]
      rfl
    have hcheck : ∀ (op : Cmp) (which : Str) (size : Option Int) (b : Bool) (body : Stmt),
        (∀ m, size = some m → cmpInt op xs.length m = b) → (size = none → b = false) →
        exec L call (checkSize ref x op which size body) ⟨ρ, root, e⟩ =
          if b then .ok (.next, ⟨ρ, root, e.add ⟨r, c!"Expected an array of " ++ which ++ c!" size " ++ intStr (size.getD 0) ++
            c!", but got: " ++ intStr xs.length⟩⟩) else exec L call body ⟨ρ, root, e⟩ := by
      intro op which size b body h1 h2
      cases size with
      | none =>
        rw [h2 rfl]
        rfl
      | some m =>
        rw [checkSize, exec_ite (b := b) (by rw [eval, hs, ← h1 m rfl]; rfl), exec_report A .refl ht]
        rfl
    rw [hcheck .lt c!"minimum" lo (lo.any fun m => (xs.length : Int) < m) _ (fun m hm => by simp [hm, cmpInt]) (fun hm => by simp [hm])]
    simp only [CppRuntime.parseArray]
    cases hlo : lo.any fun m => decide ((xs.length : Int) < m) with
    | true =>
      simp only [if_true, List.append_assoc]
      exact .failed he _
    | false =>
      simp only [Bool.false_eq_true, if_false]
      rw [hcheck .gt c!"maximum" hi (hi.any fun m => m < (xs.length : Int)) _ (fun m hm => by simp [hm, cmpInt]) (fun hm => by simp [hm])]
      cases hhi : hi.any fun m => decide (m < (xs.length : Int)) with
      | true =>
        simp only [if_true, List.append_assoc]
        exact .failed he _
      | false =>
        simp only [Bool.false_eq_true, if_false]
        obtain ⟨r1, hl, hr1⟩ := A.place _ .refl
        have hg : get p r1 = get p root := by
          rcases hr1 with rfl | rfl
          · rfl
          · exact get_put A.valid _
        have hat : At p root r1 := by
          rcases hr1 with rfl | rfl
          · exact .inl rfl
          · exact .inr ⟨_, rfl⟩
        have hs' : eval L ((tmp c!"target" n, .place p) :: ρ) (.size x) = .ok (.int xs.length) := by
          simp [eval, A.value _ (Agree.cons .refl (not_in (n := n) (b := c!"target") (a := []) (by decide))), tmp, RV.toJson, sizeOf, bind,
            Except.bind, pure, Except.pure]
        have hx' : eval L ((tmp c!"i" n, .int 0) :: (tmp c!"target" n, .place p) :: ρ) x = .ok (.json (.arr xs)) :=
          A.value _ (.cons (.cons .refl (not_in (by decide))) (not_in (by decide)))
        have hres : exec L call (.resize (tmp c!"target" n) (.size x))
            ⟨(tmp c!"target" n, .place p) :: ρ, put p (Shape.vector.of (get p r1)) r1, e⟩ = .ok (.next, ⟨(tmp c!"target" n, .place p) :: ρ,
              put p (.list (CppRuntime.resize xs.length (itemsOf (get p root)))) root, e⟩) := by
          rw [exec, getVar_here]
          simp only [hs', RV.toPath, RV.toInt, bind, Except.bind, pure, Except.pure]
          rw [get_put (hat.valid A.valid), put_put (hat.valid A.valid), hat.put A.valid, hg]
          simp [Shape.of, itemsOf_list]
        rw [exec, hl]
        simp only [bind, Except.bind]
        rw [exec_seq hres, exec, exec, hx']
        simp only [RV.toJson, bind, Except.bind]
        have hlen : ∀ ys : List Val, (CppRuntime.resize xs.length ys).length = xs.length := by
          intro ys
          simp [CppRuntime.resize]
          omega
        have := items_done (L := L) (call := call) (r := r) A.valid h xs (CppRuntime.resize xs.length (itemsOf tm)) []
          (put p (.list (CppRuntime.resize xs.length (itemsOf (get p root)))) root) e he (hlen _) (.inr ⟨_, rfl⟩)
          (by rw [get_put A.valid, itemsOf_list, hlen]; simp)
        simp only [List.length_nil, List.nil_append] at this
        cases hm : CppRuntime.parseItems f r 0 xs (CppRuntime.resize xs.length (itemsOf tm)) e with
        | error ex =>
          rw [hm] at this
          simp only [Int.ofNat_zero] at this
          rw [this]
          rfl
        | ok q =>
          obtain ⟨ts', e'⟩ := q
          rw [hm] at this
          obtain ⟨w', i', k1, k2, k3, k4⟩ := this
          rw [show ((0 : Nat) : Int) = 0 from rfl] at k1
          rw [k1]
          refine ⟨w', rfl, k2, k3, fun a b => k4 a ?_⟩
          rw [b]

/-! ## Maps -/

/-- The loop over the members -/
theorem entries_done {f : CppRuntime.ParseFn} {item : Stmt} {root₀ : Val} {ρt : Env} (hv₀ : Valid p root₀)
    (h : ∀ (k : Str) (y : JVal) (w : Val) (e : CppErrors) (tm : Val), Room e → Valid p w →
      Done (p ++ [.key k]) w e ((tmp c!"it" n, .iter k y) :: ρt) tm (f y (CppRuntime.sub r k) tm e)
        (exec L call item ⟨(tmp c!"it" n, .iter k y) :: ρt, w, e⟩)) :
    ∀ (kvs : List (Str × JVal)) (m : GoMap Val) (w : Val) (e : CppErrors), Room e → At p root₀ w →
      match CppRuntime.parseEntries f r kvs m e with
      | .ok (m', e') => ∃ w', loop (tmp c!"it" n) (exec L call (.seq item (.ifFull .brk))) (kvs.map fun kv => .iter kv.1 kv.2)
            ⟨ρt, w, e⟩ = .ok (.next, ⟨ρt, w', e'⟩) ∧ At p root₀ w' ∧ Ext e e' ∧
          (e' = e → w = put p (.map m) root₀ → w' = put p (.map m') root₀)
      | .error ex => loop (tmp c!"it" n) (exec L call (.seq item (.ifFull .brk))) (kvs.map fun kv => .iter kv.1 kv.2)
            ⟨ρt, w, e⟩ = .error ex := by
  intro kvs
  induction kvs with
  | nil =>
    intro m w e he hat
    exact ⟨w, rfl, hat, .refl he, fun _ hw => hw⟩
  | cons kv kvs ih =>
    obtain ⟨k, y⟩ := kv
    intro m w e he hat
    have hd := h k y w e (entryOf k m) he (hat.valid hv₀)
    rw [CppRuntime.parseEntries, List.map_cons, loop]
    cases hm : f y (CppRuntime.sub r k) (entryOf k m) e with
    | error ex =>
      rw [hm] at hd
      have hd : exec L call item ⟨(tmp c!"it" n, .iter k y) :: ρt, w, e⟩ = .error ex := hd
      rw [exec, hd]
      rfl
    | ok q =>
      obtain ⟨t', e1⟩ := q
      rw [hm] at hd
      obtain ⟨w1, h1, h2, h3, h4⟩ := hd
      have hat1 : At p root₀ w1 := hat.trans h2.snoc hv₀
      have hw1 : e1 = e → w = put p (.map m) root₀ → w1 = put p (.map (GoMap.put k t' m)) root₀ := by
        intro a b
        have hg : entryOf k m = get (p ++ [.key k]) w := by
          rw [get_snoc, b, get_put hv₀]
          rfl
        rw [h4 a hg, put_snoc, b, get_put hv₀, put_put hv₀]
        rfl
      have hbody : exec L call (.seq item (.ifFull .brk)) ⟨(tmp c!"it" n, .iter k y) :: ρt, w, e⟩ =
          .ok (if e1.full then .brk else .next, ⟨(tmp c!"it" n, .iter k y) :: ρt, w1, e1⟩) := by
        rw [exec_seq h1, exec]
        simp only
        cases e1.full <;> rfl
      rw [hbody]
      simp only [bind, Except.bind, pure, Except.pure, leave, St.leave, List.tail]
      cases hfull : e1.full with
      | true =>
        simp only [if_true]
        exact ⟨w1, rfl, hat1, h3, hw1⟩
      | false =>
        have := ih (GoMap.put k t' m) w1 e1 (h3.room hfull) hat1
        simp only [Bool.false_eq_true, if_false]
        cases hrest : CppRuntime.parseEntries f r kvs (GoMap.put k t' m) e1 with
        | error ex =>
          rw [hrest] at this
          exact this
        | ok q =>
          obtain ⟨m', e2⟩ := q
          rw [hrest] at this
          obtain ⟨w2, k1, k2, k3, k4⟩ := this
          refine ⟨w2, k1, k2, h3.trans k3, fun a b => ?_⟩
          have ha : e1 = e := h3.eq_of_eq k3 a
          exact k4 (a.trans ha.symm) (hw1 ha b)

theorem map_done (he : Room e) (A : Args L (In n) ρ root x tgt ref j r p) {f : CppRuntime.ParseFn} {item : Stmt}
    (h : ∀ (k : Str) (y : JVal) (w : Val) (e : CppErrors) (tm : Val), Room e → Valid p w →
      Done (p ++ [.key k]) w e ((tmp c!"it" n, .iter k y) :: (tmp c!"target" n, .place p) :: ρ) tm (f y (CppRuntime.sub r k) tm e)
        (exec L call item ⟨(tmp c!"it" n, .iter k y) :: (tmp c!"target" n, .place p) :: ρ, w, e⟩)) :
    Done p root e ρ tm (CppRuntime.parseMap f j r tm e) (exec L call (mapBody n ref tgt x item) ⟨ρ, root, e⟩) := by
  refine exec_expect A he (fun h => ?_) fun h' => ?_
  · cases j <;> first | rfl | (simp [isKind] at h; done)
  · cases j <;> first | (simp [isKind] at h'; done) | skip
    rename_i kvs
    obtain ⟨r1, hl, hr1⟩ := A.place _ .refl
    have hg : get p r1 = get p root := by
      rcases hr1 with rfl | rfl
      · rfl
      · exact get_put A.valid _
    have hat : At p root r1 := by
      rcases hr1 with rfl | rfl
      · exact .inl rfl
      · exact .inr ⟨_, rfl⟩
    have hx' : eval L ((tmp c!"target" n, .place p) :: ρ) x = .ok (.json (.obj kvs)) := A.value _ (.cons .refl (not_in (by decide)))
    have := entries_done (L := L) (call := call) (r := r) A.valid h kvs (entriesOf tm) (put p (Shape.map.of (get p root)) root) e he
      (.inr ⟨_, rfl⟩)
    rw [exec, hl]
    simp only [bind, Except.bind]
    rw [exec, hx', hat.put A.valid, hg]
    simp only [RV.toJson, bind, Except.bind, CppRuntime.parseMap]
    cases hm : CppRuntime.parseEntries f r kvs (entriesOf tm) e with
    | error ex =>
      rw [hm] at this
      simp only at this
      rw [this]
      rfl
    | ok q =>
      obtain ⟨m', e'⟩ := q
      rw [hm] at this
      obtain ⟨w', k1, k2, k3, k4⟩ := this
      rw [k1]
      refine ⟨w', rfl, k2, k3, fun a b => k4 a ?_⟩
      rw [b]
      rfl

/-! ## All the types -/

theorem Done.congr {p : Path} {root : Val} {e : CppErrors} {ρ : Env} {tm : Val} {M : Except Exc (Val × CppErrors)} {R R' : Result}
    (h : Done p root e ρ tm M R) (hr : R = R') : Done p root e ρ tm M R' := hr ▸ h

/-- Names of the loop variables -/
theorem in_old {y : Var} (h : In n y) : Old (n + 1) y := by
  rcases h with h | rfl
  · cases y <;> first | trivial | exact Nat.lt_succ_of_lt h
  · exact Nat.lt_succ_self n

theorem Agree.temp {ρ ρ' : Env} {b : Str} (h : Agree (Old (n + 1)) ρ ρ') : ρ'.lookup (tmp b n) = ρ.lookup (tmp b n) :=
  h (tmp b n) (Nat.lt_succ_self n)

theorem value_done {E : CppRuntime.Env} {ctx : Ctx} {embed : Str → CppRuntime.ParseFn} (hE : ctx.graph = E.graph ∧ ctx.dateLib = E.dateLib)
    (hL : E.lib = L) (hcall : Calls E embed call) : ∀ (ty : Ty) {n m : Nat} {ρ : Env} {root : Val} {x ref : Expr} {tgt : Place} {j : JVal}
    {r : Str} {p : Path} {e : CppErrors} {tm : Val} {code : Stmt}, parseValue ctx ty x tgt ref n = .ok (code, m) → Known E.graph ty →
    Args L (Old n) ρ root x tgt ref j r p → Regs E ctx ρ → Room e →
    Done p root e ρ tm (CppRuntime.parseTy E embed ty j r tm e) (exec L call code ⟨ρ, root, e⟩) := by
  intro ty
  induction ty with
  | boolean =>
    intro n m ρ root x ref tgt j r p e tm code h hk A hr he
    cases h
    exact bind_done A fun ρ₁ x _ A => boolean_done A he
  | integer bd =>
    intro n m ρ root x ref tgt j r p e tm code h hk A hr he
    cases h
    exact bind_done A fun ρ₁ x _ A => integer_done A he bd
  | float bd =>
    intro n m ρ root x ref tgt j r p e tm code h hk A hr he
    cases h
    rw [CppRuntime.parseTy, hL]
    exact bind_done A fun ρ₁ x _ A => float_done A he bd
  | string pat =>
    intro n m ρ root x ref tgt j r p e tm code h hk A hr he
    cases h
    rw [CppRuntime.parseTy, hL]
    exact bind_done A fun ρ₁ x _ A => text_done A he pat fun s ρ' _ _ hc => by rw [eval]; exact hc
  | path pat =>
    intro n m ρ root x ref tgt j r p e tm code h hk A hr he
    cases h
    rw [CppRuntime.parseTy, hL]
    exact bind_done A fun ρ₁ x _ A => text_done A he pat fun s ρ' hj ha _ => eval_asString A ha hj
  | date f =>
    intro n m ρ root x ref tgt j r p e tm code h hk A hr he
    cases h
    rw [CppRuntime.parseTy, hL, hE.2]
    exact bind_done A fun ρ₁ x _ A => time_done A he _ _ f
  | time f =>
    intro n m ρ root x ref tgt j r p e tm code h hk A hr he
    cases h
    rw [CppRuntime.parseTy, hL, hE.2]
    exact bind_done A fun ρ₁ x _ A => time_done A he _ _ f
  | datetime f =>
    intro n m ρ root x ref tgt j r p e tm code h hk A hr he
    cases h
    rw [CppRuntime.parseTy, hL, hE.2]
    exact bind_done A fun ρ₁ x _ A => time_done A he _ _ f
  | timeZone =>
    intro n m ρ root x ref tgt j r p e tm code h hk A hr he
    cases h
    rw [CppRuntime.parseTy, hL, hE.2]
    exact bind_done A fun ρ₁ x _ A => zone_done A he _
  | duration =>
    intro n m ρ root x ref tgt j r p e tm code h hk A hr he
    cases h
    rw [CppRuntime.parseTy, hL]
    exact bind_done A fun ρ₁ x _ A => duration_done A he
  | cls c =>
    intro n m ρ root x ref tgt j r p e tm code h hk A hr he
    rw [parseValue] at h
    cases hc : ctx.registry c with
    | error a => rw [hc] at h; cases h
    | ok v =>
      rw [hc] at h
      cases h
      refine bind_done A fun ρ₁ x ha A => class_done A he fun ρ' ha' => ?_
      obtain ⟨⟨a, b, d, rfl⟩, h2⟩ := hr c v hc
      exact getVar_eq ((ha' (.own a b d) (.inl trivial)).trans ((ha (.own a b d) trivial).trans h2))
  | embed name =>
    intro n m ρ root x ref tgt j r p e tm code h hk A hr he
    rw [parseValue, hE.1] at h
    cases h1 : referencesOf E.graph (.embed name) with
    | error a => rw [h1] at h; cases h
    | ok refs =>
      cases h2 : refs.mapM ctx.registry with
      | error a => rw [h1] at h; simp only [bind, Except.bind, h2] at h; cases h
      | ok vs =>
        cases h3 : asVariable name with
        | error a => rw [h1] at h; simp only [bind, Except.bind, h2, h3] at h; cases h
        | ok f =>
          rw [h1] at h
          simp only [bind, Except.bind, h2, h3] at h
          cases h
          exact bind_done A fun ρ₁ x ha A => embed_done hcall (hr.agree ha) he A hk h3 h1 h2
  | array y lo hi ih =>
    intro n m ρ root x ref tgt j r p e tm code h hk A hr he
    rw [parseValue] at h
    cases hi' : parseValue ctx y (.var (tmp c!"item" n)) (.at (tmp c!"target" n) (tmp c!"i" n))
      (.cat (.cat ref (.text c!"/")) (.toText (.var (tmp c!"i" n)))) (n + 1) with
    | error a => rw [hi'] at h; cases h
    | ok q =>
      obtain ⟨item, m'⟩ := q
      rw [hi'] at h
      cases h
      refine bind_done A fun ρ₁ x ha A => array_done he A fun i z w e tm he hv hlt => ?_
      have hstep : ∀ ρ', Agree (Old (n + 1)) ((tmp c!"item" n, .json z) :: (tmp c!"i" n, .int i) :: (tmp c!"target" n, .place p) :: ρ₁) ρ' →
          Agree (In n) ρ₁ ρ' := fun ρ' hρ =>
        ((hρ.right (K' := In n) (fun _ => in_old) (not_in (by decide))).right (fun _ => id) (not_in (by decide))).right (fun _ => id)
          (not_in (by decide))
      refine ih hi' hk ⟨fun ρ' hρ => ?_, fun ρ' hρ => ?_, fun ρ' hρ => ?_, hv.snoc hlt⟩
        (hr.agree (ha.trans (.cons (.cons (.cons .refl not_old) not_old) not_old))) he
      · rw [eval]
        exact getVar_eq ((hρ.temp).trans lookup_cons_eq)
      · have hi : getVar ρ' (tmp c!"i" n) = .ok (.int i) := getVar_eq ((hρ.temp).trans (by
          rw [lookup_cons_ne (by simp [tmp]), lookup_cons_eq]))
        simp [eval, A.ref _ (hstep _ hρ), hi, toText, RV.toStr, Duration.intStr_natCast, CppRuntime.sub, bind, Except.bind, pure, Except.pure]
      · have hi : getVar ρ' (tmp c!"i" n) = .ok (.int i) := getVar_eq ((hρ.temp).trans (by
          rw [lookup_cons_ne (by simp [tmp]), lookup_cons_eq]))
        have ht : getVar ρ' (tmp c!"target" n) = .ok (.place p) := getVar_eq ((hρ.temp).trans (by
          rw [lookup_cons_ne (by simp [tmp]), lookup_cons_ne (by simp [tmp]), lookup_cons_eq]))
        refine ⟨w, ?_, .inl rfl⟩
        simp [locate, hi, ht, RV.toPath, RV.toInt, hlt, bind, Except.bind, pure, Except.pure]
  | map y ih =>
    intro n m ρ root x ref tgt j r p e tm code h hk A hr he
    rw [parseValue] at h
    cases hi' : parseValue ctx y (.deref (tmp c!"it" n)) (.key (tmp c!"target" n) (tmp c!"it" n))
      (.cat (.cat ref (.text c!"/")) (.name (tmp c!"it" n))) (n + 1) with
    | error a => rw [hi'] at h; cases h
    | ok q =>
      obtain ⟨item, m'⟩ := q
      rw [hi'] at h
      cases h
      refine bind_done A fun ρ₁ x ha A => map_done he A fun k z w e tm he hv => ?_
      have hstep : ∀ ρ', Agree (Old (n + 1)) ((tmp c!"it" n, .iter k z) :: (tmp c!"target" n, .place p) :: ρ₁) ρ' →
          Agree (In n) ρ₁ ρ' := fun ρ' hρ =>
        (hρ.right (K' := In n) (fun _ => in_old) (not_in (by decide))).right (fun _ => id) (not_in (by decide))
      have hit : ∀ ρ', Agree (Old (n + 1)) ((tmp c!"it" n, .iter k z) :: (tmp c!"target" n, .place p) :: ρ₁) ρ' →
          getVar ρ' (tmp c!"it" n) = .ok (.iter k z) := fun ρ' hρ => getVar_eq ((hρ.temp).trans lookup_cons_eq)
      refine ih hi' hk ⟨fun ρ' hρ => ?_, fun ρ' hρ => ?_, fun ρ' hρ => ?_, hv.snoc trivial⟩
        (hr.agree (ha.trans (.cons (.cons .refl not_old) not_old))) he
      · simp [eval, hit _ hρ, bind, Except.bind, pure, Except.pure]
      · simp [eval, A.ref _ (hstep _ hρ), hit _ hρ, RV.toStr, CppRuntime.sub, bind, Except.bind, pure, Except.pure]
      · have ht : getVar ρ' (tmp c!"target" n) = .ok (.place p) := getVar_eq ((hρ.temp).trans (by
          rw [lookup_cons_ne (by simp [tmp]), lookup_cons_eq]))
        refine ⟨_, ?_, .inr rfl⟩
        simp [locate, hit _ hρ, ht, RV.toPath, bind, Except.bind, pure, Except.pure]

end

end Mapry.CppRead
