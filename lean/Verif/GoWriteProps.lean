import Verif.GoWriteTy
import Verif.TypeGraphLemmas
import Verif.GoFuncs

/-!
# The generated Go code which writes the properties, the classes and the embeddable structures
-/

namespace Mapry.GoExec

open Mapry.GoLang Mapry.GoGen Mapry.Naming
open Mapry.GoRuntime (JVal Lib field isPointer goName serTy serProps serComposite serEmbed)
open Mapry.GoCode (Name v vi own)

theorem goName_of {s n : Str} (h : ucamelCase s = .ok n) : goName s = n := by rw [goName, h]

theorem isPointer_eq (t : Ty) : GoCode.isPointer t = isPointer t := by cases t <;> rfl

/-- A pointer, a slice or a map is `nil` if it is so in the model. -/
theorem isNil_of {g : Graph} {σ₀ : St} {t : Ty} (ht : isPointer t = true) {x : Val} {y : GV} (h : Holds g σ₀ t x y) :
    (x.isNil = true ∧ y = .nil) ∨ (x.isNil = false ∧ y ≠ .nil) := by
  cases h <;> first | (cases ht; done) | exact .inr ⟨rfl, nofun⟩ | (rename_i h; exact .inl ⟨h, rfl⟩)

theorem notNil_of {g : Graph} {σ₀ : St} {t : Ty} (ht : isPointer t = false) {x : Val} {y : GV} (h : Holds g σ₀ t x y) :
    y ≠ .nil := by
  cases h <;> first | (cases ht; done) | exact nofun

theorem serProps_skip {ser : Ty → GV → Nat → Except Exc (JVal × Nat)} {fields : GoRuntime.Fields} {p : Property}
    {ps : List Property} {kvs : GoMap JVal} {r : Nat} (h : fields.lookup (field p) = some .nil) (ho : p.optional = true) :
    serProps ser fields (p :: ps) kvs r = serProps ser fields ps kvs r := by
  rw [serProps, h, ho]

theorem serProps_write {ser : Ty → GV → Nat → Except Exc (JVal × Nat)} {fields : GoRuntime.Fields} {p : Property}
    {ps : List Property} {kvs : GoMap JVal} {r : Nat} {y : GV} (h : fields.lookup (field p) = some y)
    (ho : p.optional = false ∨ y ≠ .nil) :
    serProps ser fields (p :: ps) kvs r = (do
      let (x, r) ← ser p.ty y r
      serProps ser fields ps (GoMap.put p.json x kvs) r) := by
  rw [serProps, h]
  cases hp : p.optional with
  | false => rfl
  | true =>
    rcases ho with ho | ho
    · rw [hp] at ho; cases ho
    · cases y <;> first | rfl | exact absurd rfl ho

/-- The fields of the structure are those of the model. -/
def HoldsFields (g : Graph) (σ₀ : St) (ps : List Property) (x : Val) (fields : GoRuntime.Fields) : Prop :=
  ∀ p ∈ ps, ∃ w y, fieldOf (field p) x = some w ∧ fields.lookup (field p) = some y ∧ HoldsProp g σ₀ p w y

/-- The properties have been written to the table at `A`. -/
def PropsDone (A lo : Nat) (ρ : Env) (σ : St) : Except Exc (GoMap JVal × Nat) → Result → Prop
  | .ok (kvs, r), R => ∃ ρ' σ' ws, R = .ok (.next, ρ', σ') ∧ Later 0 (· = A) ρ σ ρ' σ' ∧ σ'.heap[A]? = some (.table ws) ∧
      Forall₂ (Entry (Jsonable σ'.heap lo)) kvs ws ∧ σ'.ranges = r ∧ σ'.errors = σ.errors
  | .error e, R => Fails e R

section
variable {O : Order} {L : Lib} {pats : Nat → Str} {call : Call} {g : Graph} {σ₀ : St}
  {embed : Str → GV → Nat → Except Exc (JVal × Nat)}

/-- A field of the instance -/
theorem eval_field {ρ : Env} {σ : St} {I : Nat} {a : Addr} {x w : Val} {n : Name} {f : Str} (h1 : ρ.lookup n = some I)
    (h2 : σ.heap[I]? = some (.ptr a)) (h3 : σ.read a = some x) (h4 : fieldOf f x = some w) :
    eval L pats ρ σ (.field (.var n) f) = .ok w ∧
    addrOf L pats ρ σ (.field (.var n) f) = .ok ⟨a.loc, a.path ++ [.field f]⟩ ∧
    σ.read ⟨a.loc, a.path ++ [.field f]⟩ = some w := by
  have e1 := eval_var L pats h1 h2
  have e2 := (read_field h3 f).trans h4
  refine ⟨?_, ?_, e2⟩
  · rw [eval, e1]
    show need (σ.read ⟨a.loc, a.path ++ [.field f]⟩) = _
    rw [e2]
    rfl
  · rw [addrOf, e1]
    rfl

/-- `if c { ... }` -/
theorem exec_when_true {c : Expr} {s : Stmt} {ρ : Env} {σ : St} (h : eval L pats ρ σ c = .ok (.bool true)) :
    exec L pats O call (when c s) ρ σ = close ρ (exec L pats O call s ρ σ) := by
  rw [when, exec, h]
  rfl

theorem exec_when_false {c : Expr} {s : Stmt} {ρ : Env} {σ : St} (h : eval L pats ρ σ c = .ok (.bool false)) :
    exec L pats O call (when c s) ρ σ = .ok (.next, ρ, σ) := by
  rw [when, exec, h]
  rfl

theorem Stored.close {n tl : Nat} {c0 key : Val} {ρ : Env} {σ : St} {r : Except Exc (JVal × Nat)} {R : Result}
    (h : Stored n tl c0 key ρ σ r R) : Stored n tl c0 key ρ σ r (close ρ R) := by
  cases r with
  | error e =>
    rcases h with h | ⟨hp, h⟩
    · exact .inl h
    · exact .inr ⟨hp, by rw [h]; rfl⟩
  | ok p =>
    obtain ⟨ρ', σ', w, c, hR, hl, hs⟩ := h
    exact ⟨ρ, σ', w, c, by rw [hR]; rfl, ⟨fun _ _ => rfl, hl.frame⟩, hs⟩

/-- The code of one property: it is left out, or its value is stored. -/
theorem property_ok (hcall : Embeds g σ₀ embed call) {p : Property} {n m : Nat} {code : Stmt}
    (h : serializeProperty p n = .ok (code, m)) : n ≤ m ∧
    ∀ (ρ : Env) (σ : St) (I T A : Nat) (a : Addr) (x w : Val) (y : GV) (ws : List (Str × Val)), Grown σ₀.heap σ.heap →
      ρ.lookup (v c!"instance") = some I → σ.heap[I]? = some (.ptr a) → σ.read a = some x →
      ρ.lookup (v c!"target") = some T → σ.heap[T]? = some (.map A) → σ.heap[A]? = some (.table ws) →
      fieldOf (field p) x = some w → HoldsProp g σ₀ p w y →
      (p.optional = true ∧ y = .nil ∧ exec L pats O call code ρ σ = .ok (.next, ρ, σ)) ∨
      ((p.optional = false ∨ y ≠ .nil) ∧
        Stored n A (.table ws) (.str p.json) ρ σ (serTy O L embed p.ty y σ.ranges) (exec L pats O call code ρ σ)) := by
  unfold serializeProperty at h
  cases hf : ucamelCase p.name with
  | error _ => rw [hf] at h; cases h
  | ok f =>
    rw [hf] at h
    have hfp : field p = f := goName_of hf
    replace h : (do
      let (c, m) ← serializeValue p.ty (.index (.var (v c!"target")) (.str p.json))
        (if p.optional && !GoCode.isPointer p.ty then .deref (.field (.var (v c!"instance")) f)
          else .field (.var (v c!"instance")) f) n
      pure (if p.optional then when (.notNil (.field (.var (v c!"instance")) f)) c else c, m)) = .ok (code, m) := h
    cases hv : serializeValue p.ty (.index (.var (v c!"target")) (.str p.json))
        (if p.optional && !GoCode.isPointer p.ty then .deref (.field (.var (v c!"instance")) f)
          else .field (.var (v c!"instance")) f) n with
    | error _ => rw [hv] at h; cases h
    | ok q =>
      obtain ⟨c, m'⟩ := q
      rw [hv] at h
      cases h
      obtain ⟨hnm, hval⟩ := value_ok (O := O) (L := L) (pats := pats) hcall _ _ _ _ _ _ hv
      refine ⟨hnm, fun ρ σ I T A a x w y ws hx hI hIv ha hT hTv hA hw hh => ?_⟩
      rw [hfp] at hw
      have hsrc : ∀ ρ' σ', Later n (fun _ => False) ρ σ ρ' σ' →
          eval L pats ρ' σ' (.field (.var (v c!"instance")) f) = .ok w ∧
          addrOf L pats ρ' σ' (.field (.var (v c!"instance")) f) = .ok ⟨a.loc, a.path ++ [.field f]⟩ ∧
          σ'.read ⟨a.loc, a.path ++ [.field f]⟩ = some w := fun ρ' σ' hl =>
        eval_field ((hl.vars _ (old_v _ _)).trans hI) (hl.frame.get (fun h => h) hIv) (read_frame hl.frame (fun h => h) ha) hw
      have htg : Target L pats n ρ σ (.index (.var (v c!"target")) (.str p.json)) A (.str p.json) :=
        target_index hT (old_v _ _) (.inl hTv) fun _ _ _ => rfl
      have hst : Storable (.table ws) (.str p.json) := fun w => ⟨_, rfl⟩
      have he := (hsrc _ _ (.refl _ _ _ _)).1
      have hnot : ∀ b, w.isNil = b → eval L pats ρ σ (.notNil (.field (.var (v c!"instance")) f)) = .ok (.bool (!b)) := by
        intro b hb
        rw [eval, he, ← hb]
        rfl
      cases hh with
      | direct hd hh =>
        have hif : (p.optional && !GoCode.isPointer p.ty) = false := by
          rw [isPointer_eq]
          rcases hd with hd | hd <;> rw [hd] <;> simp
        rw [hif] at hval
        have hs := hval ρ σ A (.str p.json) (.table ws) w y hx (fun ρ' σ' hl => ⟨(hsrc ρ' σ' hl).1, _, (hsrc ρ' σ' hl).2⟩)
          htg hA hst hh
        cases ho : p.optional with
        | false => exact .inr ⟨.inl rfl, hs⟩
        | true =>
          have hp : isPointer p.ty = true := by
            rcases hd with hd | hd
            · rw [ho] at hd; cases hd
            · exact hd
          rcases isNil_of hp hh with ⟨h1, h2⟩ | ⟨h1, h2⟩
          · exact .inl ⟨rfl, h2, exec_when_false (hnot _ h1)⟩
          · refine .inr ⟨.inr h2, ?_⟩
            simp only [if_true]
            rw [exec_when_true (hnot _ h1)]
            exact hs.close
      | none ho _ hn =>
        refine .inl ⟨ho, rfl, ?_⟩
        rw [ho]
        exact exec_when_false (hnot _ hn)
      | @some _ b x' _ ho hp hr hh =>
        have hif : (p.optional && !GoCode.isPointer p.ty) = true := by rw [isPointer_eq, ho, hp]; rfl
        rw [hif] at hval
        have hs := hval ρ σ A (.str p.json) (.table ws) x' y hx (by
          intro ρ' σ' hl
          have hr' : σ'.read b = some x' := read_frame (hx.trans hl.frame) (fun h => h) hr
          refine ⟨?_, b, ?_, hr'⟩
          · simp only [if_true]
            rw [eval, (hsrc ρ' σ' hl).1]
            show need (σ'.read b) = _
            rw [hr']
            rfl
          · simp only [if_true]
            rw [addrOf, (hsrc ρ' σ' hl).1]
            rfl) htg hA hst hh
        refine .inr ⟨.inr (notNil_of hp hh), ?_⟩
        rw [ho]
        simp only [if_true]
        rw [exec_when_true (hnot false rfl)]
        exact hs.close

theorem props_ok (hcall : Embeds g σ₀ embed call) {x : Val} {fields : GoRuntime.Fields} :
    ∀ (ps : List Property) (n : Nat) (code : Stmt), serializeProps ps n = .ok code → HoldsFields g σ₀ ps x fields →
    ∀ (ρ : Env) (σ : St) (I T A lo : Nat) (a : Addr) (ws : List (Str × Val)) (acc : GoMap JVal), Grown σ₀.heap σ.heap →
      ρ.lookup (v c!"instance") = some I → σ.heap[I]? = some (.ptr a) → σ.read a = some x →
      ρ.lookup (v c!"target") = some T → σ.heap[T]? = some (.map A) → σ.heap[A]? = some (.table ws) →
      σ₀.heap.length ≤ A → I ≠ A → T ≠ A → a.loc ≠ A → A < lo → lo ≤ σ.heap.length →
      Forall₂ (Entry (Jsonable σ.heap lo)) acc ws →
      PropsDone A lo ρ σ (serProps (serTy O L embed) fields ps acc σ.ranges) (exec L pats O call code ρ σ) := by
  intro ps
  induction ps with
  | nil =>
    intro n code h _ ρ σ I T A lo a ws acc _ _ _ _ _ _ hA _ _ _ _ _ _ hz
    cases h
    exact ⟨ρ, σ, ws, rfl, .refl _ _ _ _, hA, hz, rfl, rfl⟩
  | cons p ps ih =>
    intro n code h hfs ρ σ I T A lo a ws acc hx hI hIv ha hT hTv hA h0 hIA hTA haA hlo hlen hz
    rw [serializeProps] at h
    cases hp : serializeProperty p n with
    | error _ => rw [hp] at h; cases h
    | ok q =>
      obtain ⟨c, m⟩ := q
      rw [hp] at h
      replace h : (do let rest ← serializeProps ps m; pure (Stmt.seq c rest)) = .ok code := h
      cases hr : serializeProps ps m with
      | error _ => rw [hr] at h; cases h
      | ok rest =>
        rw [hr] at h
        cases h
        obtain ⟨w, y, hw, hy, hh⟩ := hfs p (List.mem_cons_self ..)
        have hfs' : HoldsFields g σ₀ ps x fields := fun p hp => hfs p (List.mem_cons_of_mem _ hp)
        rcases (property_ok (O := O) (L := L) (pats := pats) hcall hp).2 ρ σ I T A a x w y ws hx hI hIv ha hT hTv hA hw hh
          with ⟨ho, hn, he⟩ | ⟨ho, hs⟩
        · subst hn
          rw [serProps_skip hy ho, exec_seq O L pats call he]
          exact ih m rest hr hfs' ρ σ I T A lo a ws acc hx hI hIv ha hT hTv hA h0 hIA hTA haA hlo hlen hz
        · rw [serProps_write hy ho]
          generalize serTy O L embed p.ty y σ.ranges = q at hs ⊢
          cases q with
          | error e =>
            rcases hs with h | ⟨hp, h⟩
            · exact .inl h
            · exact .inr ⟨hp, exec_seq_error O L pats call h⟩
          | ok q =>
            obtain ⟨j, r⟩ := q
            obtain ⟨ρ', σ', w', c', hR, hl, hst, hc', hj, hrg, her⟩ := hs
            cases hst
            rw [exec_seq O L pats call hR]
            have hl0 : Later 0 (· = A) ρ σ ρ' σ' := hl.mono (Nat.zero_le _) fun _ _ h => h
            have hx' : Grown σ₀.heap σ'.heap := by
              refine ⟨Nat.le_trans hx.more hl.frame.more, fun b hb _ => ?_⟩
              rw [hl.frame.same b (Nat.lt_of_lt_of_le hb hx.more) (by omega), hx.same b hb (fun h => h)]
            have hz' : Forall₂ (Entry (Jsonable σ'.heap lo)) (GoMap.put p.json j acc) (GoMap.put p.json w' ws) :=
              entry_put _ (hj.mono hlen)
                (forall₂_imp (fun _ _ h => ⟨h.1, h.2.frame hl.frame (fun b hb => hb ▸ hlo)⟩) hz)
            have := ih m rest hr hfs' ρ' σ' I T A lo a _ _ hx' ((hl0.vars _ (old_v _ _)).trans hI)
              (hl.frame.get hIA hIv) (read_frame hl.frame haA ha) ((hl0.vars _ (old_v _ _)).trans hT)
              (hl.frame.get hTA hTv) hc' h0 hIA hTA haA hlo (Nat.le_trans hlen hl.frame.more) hz'
            rw [hrg] at this
            show PropsDone A lo ρ σ (serProps (serTy O L embed) fields ps (GoMap.put p.json j acc) r) _
            generalize serProps (serTy O L embed) fields ps (GoMap.put p.json j acc) r = q at this ⊢
            cases q with
            | error e => exact this
            | ok q =>
              obtain ⟨ρ'', σ'', ws'', h1, h2, h3, h4, h5, h6⟩ := this
              exact ⟨ρ'', σ'', ws'', h1, hl0.trans h2, h3, h4, h5, h6.trans her⟩

/-- The state in which the code of a function writes the properties: the instance is at `σ.heap.length`, the target
next to it. -/
theorem start_ok {ρ : Env} {σ : St} {I T : Nat} {a : Addr} {t : Val} (hI : ρ.lookup (v c!"instance") = some I)
    (hIv : σ.heap[I]? = some (.ptr a)) (hT : ρ.lookup (v c!"target") = some T) (_hTv : σ.heap[T]? = some t) :
    exec L pats O call start ρ σ =
      .ok (.next, ρ, (σ.alloc (.table [])).2.put T (.map σ.heap.length)) := by
  have e1 : eval L pats ρ σ (.isNil (.var (v c!"instance"))) = .ok (.bool false) := by
    rw [eval, eval_var L pats hI hIv]
    rfl
  rw [start, exec_seq O L pats call (exec_when_false e1), exec, evalRhs]
  show (do
    let σ ← assignTo L pats ρ (σ.alloc (.table [])).2 (.map σ.heap.length) (.var (v c!"target"))
    return (Flow.next, ρ, σ)) = _
  rw [assignTo, hT]
  rfl

theorem start_nil {ρ : Env} {σ : St} {I : Nat} {t : Val} (hI : ρ.lookup (v c!"instance") = some I)
    (hIv : σ.heap[I]? = some t) (hn : t.isNil = true) :
    exec L pats O call start ρ σ = .error (.panic c!"unexpected nil instance") := by
  have e1 : eval L pats ρ σ (.isNil (.var (v c!"instance"))) = .ok (.bool true) := by
    rw [eval, eval_var L pats hI hIv, ← hn]
    rfl
  rw [start]
  refine exec_seq_error O L pats call ?_
  rw [exec_when_true e1]
  rfl

end

/-! ## Functions -/

theorem run_eq {O : Order} {L : Lib} {P : Program} {F : Func} (hn : (P.funcs.map (·.name)).Nodup) (hF : F ∈ P.funcs)
    (fuel : Nat) (args : List Val) (σ : St) : run O L P (fuel + 1) F.name args σ = (do
      let (ρ, σ) ← GoLang.bind F.params args [] σ
      let (ρ, σ) ← GoLang.bind F.results (F.results.map fun _ => .zero) ρ σ
      let (_, _, σ) ← exec L P.patterns O (run O L P fuel) F.body ρ σ
      let (_, _, σ) ← exec L P.patterns O (run O L P fuel) F.deferred ρ σ
      let rs ← F.results.mapM fun x => eval L P.patterns ρ σ (.var x)
      return (rs, σ)) := by
  rw [run, TypeGraph.find_unique (·.name) hn hF]

theorem composite_ok {O : Order} {L : Lib} {P : Program} {g : Graph} {σ₀ : St}
    {embed : Str → GV → Nat → Except Exc (JVal × Nat)} {fuel : Nat} (hcall : Embeds g σ₀ embed (run O L P fuel))
    (hn : (P.funcs.map (·.name)).Nodup) {name f : Str} {ps : List Property} {F : Func}
    (hF : serializeComposite name ps = .ok F) (hm : F ∈ P.funcs) (hf : ucamelCase name = .ok f) {σ : St} {a : Addr} {x : Val}
    {fields : GoRuntime.Fields} (hx : Grown σ₀.heap σ.heap) (ha : σ.read a = some x) (hfs : HoldsFields g σ₀ ps x fields) :
    Called σ (serComposite (serTy O L embed) ps fields σ.ranges) (run O L P (fuel + 1) (f ++ c!"ToJSONable") [.ptr a] σ) := by
  unfold serializeComposite at hF
  cases hp : serializeProps ps 0 with
  | error _ => rw [hp] at hF; cases hF
  | ok props =>
    rw [hp, hf] at hF
    cases hF
    have hrun := run_eq (O := O) (L := L) hn hm fuel [.ptr a] σ
    replace hrun : run O L P (fuel + 1) (f ++ c!"ToJSONable") [.ptr a] σ = (do
        let (_, _, τ) ← exec L P.patterns O (run O L P fuel) (block [start, props, .ret])
          [(v c!"target", (σ.alloc (.ptr a)).2.heap.length), (v c!"instance", σ.heap.length)]
          ((σ.alloc (.ptr a)).2.alloc .zero).2
        let r ← eval L P.patterns [(v c!"target", (σ.alloc (.ptr a)).2.heap.length), (v c!"instance", σ.heap.length)] τ
          (.var (v c!"target"))
        return ([r], τ)) := by
      rw [hrun]
      simp only [GoLang.bind, List.map_cons, List.map_nil, List.mapM_cons, List.mapM_nil, exec]
      show (do
        let (_, _, τ) ← exec L P.patterns O (run O L P fuel) (block [start, props, .ret])
          [(v c!"target", (σ.alloc (.ptr a)).2.heap.length), (v c!"instance", σ.heap.length)]
          ((σ.alloc (.ptr a)).2.alloc .zero).2
        let rs ← (do
          let r ← eval L P.patterns [(v c!"target", (σ.alloc (.ptr a)).2.heap.length), (v c!"instance", σ.heap.length)] τ
            (.var (v c!"target"))
          return [r])
        return (rs, τ)) = _
      cases exec L P.patterns O (run O L P fuel) (block [start, props, .ret])
          [(v c!"target", (σ.alloc (.ptr a)).2.heap.length), (v c!"instance", σ.heap.length)]
          ((σ.alloc (.ptr a)).2.alloc .zero).2 with
      | error e => rfl
      | ok q =>
        obtain ⟨_, _, τ⟩ := q
        show (do
          let rs ← (do
            let r ← eval L P.patterns [(v c!"target", (σ.alloc (.ptr a)).2.heap.length), (v c!"instance", σ.heap.length)] τ
              (.var (v c!"target"))
            return [r])
          return (rs, τ)) = (do
            let r ← eval L P.patterns [(v c!"target", (σ.alloc (.ptr a)).2.heap.length), (v c!"instance", σ.heap.length)] τ
              (.var (v c!"target"))
            return ([r], τ))
        cases eval L P.patterns [(v c!"target", (σ.alloc (.ptr a)).2.heap.length), (v c!"instance", σ.heap.length)] τ
              (.var (v c!"target")) <;> rfl
    rw [hrun]
    generalize hσ1 : (σ.alloc (.ptr a)).2 = σ1
    generalize hσ2 : (σ1.alloc .zero).2 = σ2
    have l1 : Grown σ.heap σ1.heap := by rw [← hσ1]; exact grown_append _ _
    have l2 : Grown σ1.heap σ2.heap := by rw [← hσ2]; exact grown_append _ _
    have len1 : σ1.heap.length = σ.heap.length + 1 := by rw [← hσ1]; exact alloc_len _ _
    have len2 : σ2.heap.length = σ1.heap.length + 1 := by rw [← hσ2]; exact alloc_len _ _
    have i1 : σ1.heap[σ.heap.length]? = some (.ptr a) := by rw [← hσ1]; exact alloc_get _ _
    have i2 := l2.get (fun h => h) i1
    have t2 : σ2.heap[σ1.heap.length]? = some .zero := by rw [← hσ2]; exact alloc_get _ _
    generalize hρ : [(v c!"target", σ1.heap.length), (v c!"instance", σ.heap.length)] = ρ
    have hT : List.lookup (v c!"target") ρ = some σ1.heap.length := by rw [← hρ]; exact lookup_self _ _ _
    have hI : List.lookup (v c!"instance") ρ = some σ.heap.length := by
      rw [← hρ, lookup_ne (by decide)]; exact lookup_self _ _ _
    rw [block, exec_seq O L P.patterns _ (start_ok hI i2 hT t2)]
    generalize hσ3 : (σ2.alloc (.table [])).2 = σ3
    have l3 : Grown σ2.heap σ3.heap := by rw [← hσ3]; exact grown_append _ _
    have len3 : σ3.heap.length = σ2.heap.length + 1 := by rw [← hσ3]; exact alloc_len _ _
    have a3 : σ3.heap[σ2.heap.length]? = some (.table []) := by rw [← hσ3]; exact alloc_get _ _
    generalize hσ4 : σ3.put σ1.heap.length (.map σ2.heap.length) = σ4
    have l4 : Frame (· = σ1.heap.length) σ3.heap σ4.heap := by rw [← hσ4]; exact frame_set _ _ _
    have len4 : σ4.heap.length = σ3.heap.length := by
      rw [← hσ4]
      show (σ3.heap.set _ _).length = _
      simp
    have t4 : σ4.heap[σ1.heap.length]? = some (.map σ2.heap.length) := by
      rw [← hσ4]
      exact List.getElem?_set_self (by omega)
    have l04 : Grown σ.heap σ4.heap := by
      refine ⟨by omega, fun b hb _ => ?_⟩
      rw [l4.same b (by omega) (by omega), l3.same b (by omega) (fun h => h), l2.same b (by omega) (fun h => h),
        l1.same b hb (fun h => h)]
    have hal := read_lt ha
    have hx0 := hx.more
    have hdone := props_ok (O := O) (L := L) (pats := P.patterns) hcall ps 0 props hp hfs ρ σ4 σ.heap.length σ1.heap.length
      σ2.heap.length σ4.heap.length a [] [] (hx.trans l04) hI
      (l4.get (by omega) (l3.get (fun h => h) i2)) (read_frame l04 (fun h => h) ha) hT t4 (l4.get (by omega) a3)
      (by omega) (by omega) (by omega) (by omega) (by omega) (Nat.le_refl _) .nil
    have rg : σ4.ranges = σ.ranges := by rw [← hσ4, ← hσ3, ← hσ2, ← hσ1]; rfl
    have er : σ4.errors = σ.errors := by rw [← hσ4, ← hσ3, ← hσ2, ← hσ1]; rfl
    rw [rg] at hdone
    rw [serComposite]
    generalize serProps (serTy O L embed) fields ps [] σ.ranges = q at hdone ⊢
    rw [block]
    cases q with
    | error e =>
      rcases hdone with h | ⟨hp, h⟩
      · exact .inl h
      · refine .inr ⟨hp, ?_⟩
        rw [exec_seq_error O L P.patterns _ h]
        rfl
    | ok q =>
      obtain ⟨kvs, r⟩ := q
      obtain ⟨ρ', σ', ws, h1, h2, h3, h4, h5, h6⟩ := hdone
      rw [exec_seq O L P.patterns _ h1]
      have hev : eval L P.patterns ρ σ' (.var (v c!"target")) = .ok (.map σ2.heap.length) :=
        eval_var L P.patterns hT (h2.frame.get (by omega) t4)
      show Called σ (.ok (.obj kvs, r)) (do
        let r ← eval L P.patterns ρ σ' (.var (v c!"target"))
        return ([r], σ'))
      rw [hev]
      refine ⟨_, σ', rfl, ?_, ?_, h5, h6.trans er⟩
      · refine ⟨Nat.le_trans l04.more h2.frame.more, fun b hb _ => ?_⟩
        rw [h2.frame.same b (by omega) (by omega), l04.same b hb (fun h => h)]
      · refine .ofTable (by omega) h3 (forall₂_imp (fun _ _ h => ⟨h.1, h.2.mono ?_⟩) h4)
        omega

/-- The functions of the program -/
theorem writer_class {g : Graph} {P : Program} (h : writer g = .ok P) {c : Class} (hc : c ∈ g.classes) :
    ∃ F ∈ P.funcs, serializeComposite c.name c.properties = .ok F := by
  unfold writer at h
  cases h1 : g.classes.mapM fun c => serializeComposite c.name c.properties with
  | error _ => rw [h1] at h; cases h
  | ok cs =>
    cases h2 : g.embeds.mapM fun e => serializeComposite e.name e.properties with
    | error _ => rw [h1, h2] at h; cases h
    | ok es =>
      cases h3 : serializeGraph g with
      | error _ => rw [h1, h2, h3] at h; cases h
      | ok G =>
        rw [h1, h2, h3] at h
        cases h
        obtain ⟨F, hF, hF'⟩ := GoCode.mapM_mem' h1 hc
        exact ⟨F, by simp [hF], hF'⟩

theorem writer_embed {g : Graph} {P : Program} (h : writer g = .ok P) {e : Embed} (he : e ∈ g.embeds) :
    ∃ F ∈ P.funcs, serializeComposite e.name e.properties = .ok F := by
  unfold writer at h
  cases h1 : g.classes.mapM fun c => serializeComposite c.name c.properties with
  | error _ => rw [h1] at h; cases h
  | ok cs =>
    cases h2 : g.embeds.mapM fun e => serializeComposite e.name e.properties with
    | error _ => rw [h1, h2] at h; cases h
    | ok es =>
      cases h3 : serializeGraph g with
      | error _ => rw [h1, h2, h3] at h; cases h
      | ok G =>
        rw [h1, h2, h3] at h
        cases h
        obtain ⟨F, hF, hF'⟩ := GoCode.mapM_mem' h2 he
        exact ⟨F, by simp [hF], hF'⟩

theorem writer_graph {g : Graph} {P : Program} (h : writer g = .ok P) : ∃ F ∈ P.funcs, serializeGraph g = .ok F := by
  unfold writer at h
  cases h1 : g.classes.mapM fun c => serializeComposite c.name c.properties with
  | error _ => rw [h1] at h; cases h
  | ok cs =>
    cases h2 : g.embeds.mapM fun e => serializeComposite e.name e.properties with
    | error _ => rw [h1, h2] at h; cases h
    | ok es =>
      cases h3 : serializeGraph g with
      | error _ => rw [h1, h2, h3] at h; cases h
      | ok G =>
        rw [h1, h2, h3] at h
        cases h
        exact ⟨G, by simp, rfl⟩

theorem embeds_ok {O : Order} {L : Lib} {P : Program} {g : Graph} {σ₀ : St} (hw : writer g = .ok P)
    (hn : (P.funcs.map (·.name)).Nodup) : ∀ (fuel fuel' : Nat), fuel ≤ fuel' →
    Embeds g σ₀ (serEmbed O L g fuel) (run O L P fuel')
  | 0, _, _ => fun _ _ _ _ _ _ _ _ _ _ => .inl rfl
  | k + 1, 0, h => absurd h (by omega)
  | k + 1, k' + 1, h => by
    intro name f σ a x y hf hx ha hh
    cases hh with
    | @embed _ n' e _ fields V w he h1 h2 h3 =>
      obtain ⟨hm, hname⟩ := TypeGraph.find_mem he
      have hname : e.name = name := by simpa using hname
      obtain ⟨F, hF, hF'⟩ := writer_embed hw hm
      rw [serEmbed, he]
      exact composite_ok (embeds_ok hw hn k k' (by omega)) hn hF' hF (hname ▸ hf) hx ha
        fun p hp => ⟨w p, V p, h2 p hp, h1 p hp, h3 p hp⟩

end Mapry.GoExec
