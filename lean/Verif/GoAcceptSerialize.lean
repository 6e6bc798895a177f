import Verif.GoAcceptGraph

/-!
# When the types in the generated Go code are accepted: the serializing functions
-/

namespace Mapry.GoTyped

open Mapry.TypeGraph Mapry.Naming
open Mapry.GoTypes (GTy typeRepr camel pureRepr pureField)
open Mapry.GoCheck
open Mapry.GoCode (Name isPointer v vi own)

/-- What the serialization needs from the package -/
structure SerKnown (W : World) (g : Graph) : Prop where
  format : findMethod W .time c!"Format" = some ⟨[.string], false, [.string]⟩
  zone : findMethod W (.ptr .location) c!"String" = some ⟨[], false, [.string]⟩
  duration : Occurs g .duration → W.funcs.lookup c!"durationToString" = some ⟨[.duration], false, [.string]⟩
  ids : ∀ n, Occurs g (.cls n) → member W (.ptr (.named (camel n))) c!"ID" = some .string
  embeds : ∀ n, Occurs g (.embed n) →
    W.funcs.lookup (camel n ++ c!"ToJSONable") = some ⟨[.ptr (.named (camel n))], false, [.map .any]⟩
  graph : (W.structs.lookup (camel g.name)).isSome = true
  classIds : ∀ c ∈ g.classes, member W (.ptr (.named (camel c.name))) c!"ID" = some .string
  fields : ∀ c ∈ g.classes, member W (.ptr (.named (camel g.name))) (camel c.plural) = some (registryTy c.name)
  writes : ∀ c ∈ g.classes,
    W.funcs.lookup (camel c.name ++ c!"ToJSONable") = some ⟨[.ptr (.named (camel c.name))], false, [.map .any]⟩

section
variable {W : World} {g : Graph} {Γ Γ' : Env} {n m : Nat} {b b' : Bool} {c d : Code} {owner : Str}

/-- The expression has the type; if `a` holds then its address may be taken. -/
structure Src (W : World) (Γ : Env) (n : Nat) (e : Expr) (t : GTy) (a : Bool) : Prop where
  has : Has W Γ n e (.val t)
  addr : a = true → infer.addressable W (look Γ) e = true

theorem fits_any_val (t : GTy) : fits .any (.val t) = true := fits_any t

/-- Anything with a type is assigned to an entry of the target. -/
theorem acc_put {tgt e : Expr} {t : GTy} {a : Bool} (h : Tgt W Γ n tgt .any a) (he : Has W Γ n e (.val t)) :
    Acc W Γ m (.assign tgt e .done) true := .assign he.2 (h.stores (fits_any t)) .done

theorem acc_serializeDateTime (K : SerKnown W g) {f : Str} {tgt value : Expr} (h : serializeDateTime f tgt value n = .ok (c, m))
    (hv : Has W Γ n value (.val .time)) (ht : Tgt W Γ n tgt .any false) : Acc W Γ n c true := by
  unfold serializeDateTime at h
  obtain ⟨w, _, h⟩ := GoCode.ok_bind h
  cases h
  split
  · exact .assign (r := .text) rfl (ht.stores rfl) .done
  · exact acc_put ht (.call ((hv.method K.format).args (us := [.string]) (.cons ⟨_, .text, rfl⟩ .nil)))

/-- The code to write a value -/
theorem acc_serializeValue (K : SerKnown W g) (t : Ty) : ∀ {Γ : Env} {n m : Nat} {tgt value : Expr} {c : Code},
    (∀ u ∈ parts t, Occurs g u) → Quiet Γ → serializeValue t tgt value n = .ok (c, m) → Src W Γ n value (pureRepr t) (isEmbed t) →
      Tgt W Γ n tgt .any false → Acc W Γ n c true := by
  induction t with
  | boolean => intro Γ n m tgt value c ht hq h hv hl; cases h; exact acc_put hl hv.has
  | integer b => intro Γ n m tgt value c ht hq h hv hl; cases h; exact acc_put hl hv.has
  | float b => intro Γ n m tgt value c ht hq h hv hl; cases h; exact acc_put hl hv.has
  | string p => intro Γ n m tgt value c ht hq h hv hl; cases h; exact acc_put hl hv.has
  | path p => intro Γ n m tgt value c ht hq h hv hl; cases h; exact acc_put hl hv.has
  | date f => intro Γ n m tgt value c ht hq h hv hl; exact acc_serializeDateTime K h hv.has hl
  | time f => intro Γ n m tgt value c ht hq h hv hl; exact acc_serializeDateTime K h hv.has hl
  | datetime f => intro Γ n m tgt value c ht hq h hv hl; exact acc_serializeDateTime K h hv.has hl
  | timeZone =>
    intro Γ n m tgt value c ht hq h hv hl
    cases h
    exact acc_put hl (.call (hv.has.method K.zone))
  | duration =>
    intro Γ n m tgt value c ht hq h hv hl
    cases h
    exact acc_put hl (.call (.args (us := [.duration]) (ts := []) (more := false) (.cons ⟨_, hv.has, rfl⟩ .nil)
      (.fn hq (K.duration (ht _ (self_mem_parts _))))))
  | cls k =>
    intro Γ n m tgt value c ht hq h hv hl
    cases h
    exact acc_put hl (.field hv.has (K.ids k (ht _ (self_mem_parts _))))
  | embed k =>
    intro Γ n m tgt value c ht hq h hv hl
    rw [serializeValue] at h
    obtain ⟨f, hf, h⟩ := GoCode.ok_bind h
    cases GoTypes.camel_eq hf
    cases h
    have haddr : Has W Γ n (.addr value) (.val (.ptr (.named (camel k)))) :=
      ⟨hv.has.1, by rw [infer, if_pos (hv.addr rfl), hv.has.2]; rfl⟩
    exact acc_put hl (.call (.args (us := [.ptr (.named (camel k))]) (ts := []) (more := false) (.cons ⟨_, haddr, fits_self _⟩ .nil)
      (.fn hq (K.embeds k (ht _ (self_mem_parts _))))))
  | array t lo hi ih =>
    intro Γ n m tgt value c ht hq h hv hl
    rw [serializeValue] at h
    obtain ⟨⟨item, k⟩, hi, h⟩ := GoCode.ok_bind h
    cases h
    have hx1 : Ext n Γ ((vi c!"count" n, .int) :: Γ) := (Ext.refl ..).cons (fresh_vi ..) _
    have hx2 : Ext n Γ ((vi c!"slice" n, .slice (pureRepr t)) :: (vi c!"count" n, .int) :: Γ) := hx1.cons (fresh_vi ..) _
    have hx3 : Ext n Γ ((vi c!"target" n, .slice .any) :: (vi c!"slice" n, .slice (pureRepr t)) :: (vi c!"count" n, .int) :: Γ) :=
      hx2.cons (fresh_vi ..) _
    have hx4 : Ext n Γ ((vi c!"i" n, .int) :: (vi c!"target" n, .slice .any) :: (vi c!"slice" n, .slice (pureRepr t)) ::
      (vi c!"count" n, .int) :: Γ) := hx3.cons (fresh_vi ..) _
    have hvh : infer W (look Γ) value = some (.val (.slice (pureRepr t))) := hv.has.2
    have hv1 : infer W (look ((vi c!"count" n, .int) :: Γ)) value = some (.val (.slice (pureRepr t))) :=
      (hv.has.ext hx1 (Nat.le_succ n)).2
    refine .define (t := .int) (by rw [infer, hvh]; rfl) (fresh_vi ..) (.define hv1 (fresh_vi ..) (.define (t := .slice .any) ?_ (fresh_vi ..)
      (.loop (b := true) (b' := true) (m := n + 1) ?_ ?_ ?_)))
    · rw [infer, (Has.xi (W := W) (n := n + 1) (b := c!"count") (t := .int) (by simp [look_cons, vi]) (by omega)).2, Option.bind_some,
        typeOk_of (hq.ext hx2) (by simp [GTy.names])]
      rfl
    · exact (Has.xi (n := n + 1) (by simp [look_cons, vi]) (by omega)).2
    · have hidx : Has W ((vi c!"i" n, .int) :: (vi c!"target" n, .slice .any) :: (vi c!"slice" n, .slice (pureRepr t)) ::
          (vi c!"count" n, .int) :: Γ) (n + 1) (xi c!"i" n) (.val .int) := .xi (by simp [look_cons]) (by omega)
      have hsl : Has W ((vi c!"i" n, .int) :: (vi c!"target" n, .slice .any) :: (vi c!"slice" n, .slice (pureRepr t)) ::
          (vi c!"count" n, .int) :: Γ) (n + 1) (xi c!"slice" n) (.val (.slice (pureRepr t))) :=
        .xi (by simp [look_cons, vi]) (by omega)
      have htg : Has W ((vi c!"i" n, .int) :: (vi c!"target" n, .slice .any) :: (vi c!"slice" n, .slice (pureRepr t)) ::
          (vi c!"count" n, .int) :: Γ) (n + 1) (xi c!"target" n) (.val (.slice .any)) :=
        .xi (by simp [look_cons, vi]) (by omega)
      refine ih (fun u hu => ht u (by simp [parts, hu])) (hq.ext hx4) hi ⟨.index hsl hidx rfl, fun _ => ?_⟩ ⟨.index htg hidx rfl, ?_, by simp⟩
      · rw [infer.addressable, hsl.2]
        rfl
      · rw [assignable, infer.addressable, htg.2]
        rfl
    · exact acc_put (hl.ext hx3 (Nat.le_succ n)) (.xi (t := .slice .any) (by simp [look_cons]) (by omega))
  | map t ih =>
    intro Γ n m tgt value c ht hq h hv hl
    rw [serializeValue] at h
    obtain ⟨⟨item, k⟩, hi, h⟩ := GoCode.ok_bind h
    cases h
    have hx1 : Ext n Γ ((vi c!"target" n, .map .any) :: Γ) := (Ext.refl ..).cons (fresh_vi ..) _
    have hx2 : Ext n Γ ((vi c!"map" n, .map (pureRepr t)) :: (vi c!"target" n, .map .any) :: Γ) := hx1.cons (fresh_vi ..) _
    have hx4 : Ext n Γ ((vi c!"v" n, pureRepr t) :: (vi c!"k" n, .string) :: (vi c!"map" n, .map (pureRepr t)) ::
      (vi c!"target" n, .map .any) :: Γ) := (hx2.cons (fresh_vi ..) _).cons (fresh_vi ..) _
    have hv1 : infer W (look ((vi c!"target" n, .map .any) :: Γ)) value = some (.val (.map (pureRepr t))) :=
      (hv.has.ext hx1 (Nat.le_succ n)).2
    refine .define (has_make hq (by simp [GTy.names])) (fresh_vi ..) (.define hv1 (fresh_vi ..)
      (.range (b := true) (b' := true) (m := n + 1) (t := .string) (u := pureRepr t) ?_ ?_ ?_))
    · rw [(Has.xi (W := W) (n := n + 1) (b := c!"map") (t := .map (pureRepr t)) (by simp [look_cons]) (by omega)).2]
      rfl
    · rw [bindOpt]
      refine ih (fun u hu => ht u (by simp [parts, hu])) (hq.ext hx4) hi ⟨.xi (by simp [look_cons]) (by omega), fun _ => rfl⟩
        (tgt_entry (r := .val .string) (.xi (by simp [look_cons, vi]) (by omega)) (.xi (by simp [look_cons, vi]) (by omega)) rfl rfl)
    · exact acc_put (hl.ext hx2 (Nat.le_succ n)) (.xi (t := .map .any) (by simp [look_cons, vi]) (by omega))

/-- The variables of a serializing function -/
structure SBody (Γ : Env) (owner : Str) : Prop where
  quiet : Quiet Γ
  inst : look Γ (v c!"instance") = some (.ptr (.named owner))
  target : look Γ (v c!"target") = some (.map .any)

theorem SBody.ext (B : SBody Γ owner) (h : Ext 0 Γ Γ') : SBody Γ' owner :=
  ⟨B.quiet.ext h, by rw [h.look (y := v c!"instance") trivial]; exact B.inst, by rw [h.look (y := v c!"target") trivial]; exact B.target⟩

theorem nillable_repr {t : Ty} (h : isPointer t = true) : nillable (pureRepr t) = true := by
  cases t <;> first | rfl | cases h

theorem has_isNil {e : Expr} {t : GTy} (he : Has W Γ n e (.val t)) (h : nillable t = true) :
    infer W (look Γ) (.eq e .nil) = some (.val .bool) := by
  rw [infer, he.2, Option.bind_some, infer, Option.bind_some, equalOk, h, if_pos rfl]

/-- The code to write a property -/
theorem acc_serializeProperty (K : SerKnown W g) (B : SBody Γ owner) {p : Property} (ht : ∀ u ∈ parts p.ty, Occurs g u)
    (hm : member W (.ptr (.named owner)) (camel p.name) = some (pureField p).2)
    (h : serializeProperty p n = .ok (c, m)) : Acc W Γ n c true := by
  unfold serializeProperty at h
  obtain ⟨f, hf, h⟩ := GoCode.ok_bind h
  cases GoTypes.camel_eq hf
  obtain ⟨⟨d, k⟩, hd, h⟩ := GoCode.ok_bind h
  cases h
  have hi := Has.x (W := W) (n := n) B.inst
  have hfield := hi.field hm
  have haddr : infer.addressable W (look Γ) (.field (x c!"instance") (camel p.name)) = true := by
    rw [infer.addressable, hi.2]
    rfl
  have htgt : Tgt W Γ n (.index (x c!"target") .text) .any false := tgt_entry (.x B.target) .text rfl rfl
  have hval : Src W Γ n (if (p.optional && !isPointer p.ty) = true then .star (.field (x c!"instance") (camel p.name))
      else .field (x c!"instance") (camel p.name)) (pureRepr p.ty) (isEmbed p.ty) := by
    unfold pureField at hfield
    cases ho : p.optional <;> cases hp : isPointer p.ty <;> rw [ho, hp] at hfield
    · exact ⟨hfield, fun _ => haddr⟩
    · exact ⟨hfield, fun _ => haddr⟩
    · exact ⟨⟨hfield.1, by simp only [Bool.not_false, Bool.and_self, if_true]; rw [infer, hfield.2]; rfl⟩, fun _ => rfl⟩
    · exact ⟨hfield, fun _ => haddr⟩
  have hd' := acc_serializeValue K p.ty ht B.quiet hd hval htgt
  cases ho : p.optional with
  | false => exact hd'
  | true =>
    refine .test (has_isNil hfield ?_) (.block' hd' .done)
    unfold pureField
    cases hp : isPointer p.ty
    · simp [ho, nillable]
    · simpa [ho] using nillable_repr hp

/-- The code to write the properties -/
theorem acc_serializeProps (K : SerKnown W g) {ps : List Property} (ht : ∀ p ∈ ps, ∀ u ∈ parts p.ty, Occurs g u)
    (hm : ∀ p ∈ ps, member W (.ptr (.named owner)) (camel p.name) = some (pureField p).2) :
    ∀ {Γ : Env} {n : Nat} {c : Code}, SBody Γ owner → serializeProps ps n = .ok c → Acc W Γ 0 c true := by
  induction ps with
  | nil =>
    intro Γ n c B h
    cases h
    exact .done
  | cons p ps ih =>
    intro Γ n c B h
    rw [serializeProps] at h
    obtain ⟨⟨d, m⟩, hd, h⟩ := GoCode.ok_bind h
    obtain ⟨rest, hrest, h⟩ := GoCode.ok_bind h
    cases h
    exact .append (b := true) (b' := true) (.mono (acc_serializeProperty K B (ht p (by simp)) (hm p (by simp)) hd) (Nat.zero_le n))
      fun Γ' hx => ih (fun p hp => ht p (by simp [hp])) (fun p hp => hm p (by simp [hp])) (B.ext hx) hrest

theorem acc_serialized (B : SBody Γ owner) (h : Acc W Γ 0 c b) : Acc W Γ 0 (serialized c) b :=
  .test (has_isNil (.x (n := 0) B.inst) rfl) (.block' (m := 0) .done (.assign (has_make B.quiet (by simp [GTy.names]))
    ((tgt_var (n := 0) (a := false) B.target trivial).stores (fits_self _)) h))

/-- The function of a class or an embed -/
theorem ok_serializeComposite (K : SerKnown W g) {name : Str} {ps : List Property} {f : Func}
    (hs : (W.structs.lookup (camel name)).isSome = true) (ht : ∀ p ∈ ps, ∀ u ∈ parts p.ty, Occurs g u)
    (hm : ∀ p ∈ ps, member W (.ptr (.named (camel name))) (camel p.name) = some (pureField p).2)
    (h : serializeComposite name ps = .ok f) : f.ok W sameName = true := by
  unfold serializeComposite at h
  obtain ⟨props, hprops, h⟩ := GoCode.ok_bind h
  obtain ⟨k, hk, h⟩ := GoCode.ok_bind h
  cases GoTypes.camel_eq hk
  cases h
  have B : SBody [(v c!"target", .map .any), (v c!"instance", .ptr (.named (camel name)))] (camel name) := by
    refine ⟨fun e he => ?_, by simp [look_cons, v], by simp [look_cons, v]⟩
    simp only [List.mem_cons, List.not_mem_nil, or_false] at he
    rcases he with rfl | rfl <;> exact id
  unfold Func.ok
  rw [Bool.and_eq_true]
  refine ⟨?_, (acc_serialized B (acc_serializeProps K ht hm B hprops)).okay⟩
  have key : ∀ t : GTy, (∀ k ∈ t.names, (W.structs.lookup k).isSome = true) → typeOk W (fun _ => none) t = true :=
    fun t ht => typeOk_of (Γ := []) (by simp [Quiet]) ht
  simp only [List.cons_append, List.nil_append, List.all_cons, List.all_nil, Bool.and_true, Bool.and_eq_true]
  exact ⟨key _ fun k hk => by cases List.mem_singleton.1 hk; exact hs, key _ (by simp [GTy.names, targetResult])⟩

theorem Okay.define {y : Name} {e : Expr} {t : GTy} (he : infer W (look Γ) e = some (.val t)) (h : Okay W ((y, t) :: Γ) c b) :
    Okay W Γ (.define y e c) b :=
  h.same (by rw [run, he]; rfl)

theorem Okay.range {k : Name} {z : Option Name} {e : Expr} {t u : GTy} (he : ranges (infer W (look Γ) e) = some (t, u))
    (h : Okay W (bindOpt z u ((k, t) :: Γ)) c true) (h' : Okay W Γ d b) : Okay W Γ (.range k z e c d) b := by
  obtain ⟨Γ', h⟩ := Option.isSome_iff_exists.1 (show (run W sameName _ c).isSome = true from h)
  exact h'.same (by rw [run, he, Option.bind_some]; dsimp only; rw [h]; rfl)

theorem Acc.blockOkay (h : Okay W Γ c true) (h' : Acc W Γ n d b) : Acc W Γ n (.block c d) b := by
  obtain ⟨Γ', h⟩ := Option.isSome_iff_exists.1 (show (run W sameName Γ c).isSome = true from h)
  exact h'.same (by rw [run, h]; rfl)

/-- The code to write a registry -/
theorem acc_serializeRegistry (K : SerKnown W g) (B : SBody Γ (camel g.name)) (he : look Γ (v c!"err") = some .error) {k : Class}
    (hk : k ∈ g.classes) (h : serializeRegistry k = .ok c) : Acc W Γ 0 c true := by
  unfold serializeRegistry at h
  obtain ⟨p, hp, h⟩ := GoCode.ok_bind h
  obtain ⟨i, hi, h⟩ := GoCode.ok_bind h
  obtain ⟨m, hm, h⟩ := GoCode.ok_bind h
  obtain ⟨_, _, h⟩ := GoCode.ok_bind h
  cases GoTypes.camel_eq hp
  cases GoTypes.camel_eq hm
  cases h
  have hreg : ∀ {Γ : Env}, look Γ (v c!"instance") = some (.ptr (.named (camel g.name))) →
      Has W Γ 0 (.field (x c!"instance") (camel k.plural)) (.val (registryTy k.name)) := fun hi => .field (.x hi) (K.fields k hk)
  refine .test ?_ (.blockOkay (.define (has_make (t := .any) B.quiet (by simp [GTy.names])) ?_) .done)
  · have hlen : infer W (look Γ) (.len (.field (x c!"instance") (camel k.plural))) = some (.val .int) := by
      rw [infer, (hreg B.inst).2]
      rfl
    rw [infer, hlen]
    rfl
  have hq : ∀ {Γ : Env} {y : Name} (t : GTy), Quiet Γ → ¬ Outer y → Quiet ((y, t) :: Γ) := by
    intro Γ y t h hy e he
    rcases List.mem_cons.1 he with rfl | he
    · exact hy
    · exact h e he
  have hi1 : look ((own c!"target" (camel k.plural) [], .map .any) :: Γ) (v c!"instance") = some (.ptr (.named (camel g.name))) := by
    rw [look_cons, if_neg (by simp [GoCode.own, v])]
    exact B.inst
  refine .range (t := .string) (u := .ptr (.named (camel k.name))) (by rw [(hreg hi1).2]; rfl) ?_ ?_
  · rw [bindOpt]
    have hi2 : look ((v c!"id", .string) :: (own c!"target" (camel k.plural) [], .map .any) :: Γ) (v c!"instance") =
        some (.ptr (.named (camel g.name))) := by
      rw [look_cons, if_neg (by simp [v])]
      exact hi1
    refine .define (t := .ptr (.named (camel k.name)))
      (Has.index (n := 0) (r := .val .string) (hreg hi2) (.x (by rw [look_cons, if_pos rfl])) rfl).2 ?_
    generalize hΔ : ((own [] i c!"Instance", GTy.ptr (.named (camel k.name))) :: (v c!"id", .string) ::
      (own c!"target" (camel k.plural) [], .map .any) :: Γ) = Δ
    have hqΔ : Quiet Δ := by rw [← hΔ]; exact hq _ (hq _ (hq _ B.quiet id) id) id
    have hinst : Has W Δ 0 (.var (own [] i c!"Instance")) (.val (.ptr (.named (camel k.name)))) :=
      .var (by rw [← hΔ, look_cons, if_pos rfl]) trivial
    have hid : Has W Δ 0 (x c!"id") (.val .string) := .x (by simp [← hΔ, look_cons, GoCode.own, v])
    have htgt : look Δ (own c!"target" (camel k.plural) []) = some (.map .any) := by
      simp [← hΔ, look_cons, GoCode.own, v]
    have herr : look Δ (v c!"err") = some .error := by
      rw [← hΔ, look_cons, if_neg (by simp [GoCode.own, v]), look_cons, if_neg (by simp [v]), look_cons, if_neg (by simp [GoCode.own, v])]
      exact he
    have hID := hinst.field (K.classIds k hk)
    refine Acc.okay (n := 0) (.test ?_ (.block' (m := 0) (.assign (s := .val .error) ?_
      ((tgt_var (n := 0) (a := false) herr trivial).stores rfl) .done) (.assign (s := .val (.map .any)) ?_
      ((tgt_entry (n := 0) (a := false) (.var htgt trivial) hid rfl rfl).stores rfl) .done)))
    · rw [infer, hid.2, Option.bind_some, hID.2]
      rfl
    · exact (Has.call (more := true) (Has.mores (.any hid (.any hID .nil)) (Has.arg (t := .string) (Has.lib hqΔ (by decide)) .text rfl))).2
    · exact (Has.call (more := false) (Has.args (us := [.ptr (.named (camel k.name))]) (ts := []) (.cons ⟨_, hinst, fits_self _⟩ .nil)
        (.fn hqΔ (K.writes k hk)))).2
  · have ht1 : look ((own c!"target" (camel k.plural) [], .map .any) :: Γ) (v c!"target") = some (.map .any) := by
      rw [look_cons, if_neg (by simp [GoCode.own, v])]
      exact B.target
    exact (acc_put (m := 0) (n := 0) (a := false) (tgt_entry (.x ht1) .text rfl rfl)
      (.var (t := .map .any) (by rw [look_cons, if_pos rfl]) (show Older 0 (own c!"target" (camel k.plural) []) from trivial))).okay

theorem acc_registries (K : SerKnown W g) {ks : List Class} : ∀ {Γ : Env} {cs : List Code}, SBody Γ (camel g.name) →
    look Γ (v c!"err") = some .error → (∀ k ∈ ks, k ∈ g.classes) → ks.mapM serializeRegistry = .ok cs →
      Acc W Γ 0 (concat cs) true := by
  induction ks with
  | nil =>
    intro Γ cs B _ _ h
    cases h
    exact .done
  | cons k ks ih =>
    intro Γ cs B he hks h
    obtain ⟨c, cs', hc, hcs, rfl⟩ := GoCode.mapM_cons h
    exact .append (b := true) (b' := true) (acc_serializeRegistry K B he (hks k (by simp)) hc) fun Γ' hx =>
      ih (B.ext hx) (by rw [hx.look (y := v c!"err") trivial]; exact he) (fun k hk => hks k (by simp [hk])) hcs

/-- The function of the graph -/
theorem ok_serializeGraph (K : SerKnown W g) {f : Func} (ht : ∀ p ∈ g.properties, ∀ u ∈ parts p.ty, Occurs g u)
    (hm : ∀ p ∈ g.properties, member W (.ptr (.named (camel g.name))) (camel p.name) = some (pureField p).2)
    (h : serializeGraph g = .ok f) : f.ok W sameName = true := by
  unfold serializeGraph at h
  obtain ⟨props, hprops, h⟩ := GoCode.ok_bind h
  obtain ⟨regs, hregs, h⟩ := GoCode.ok_bind h
  obtain ⟨k, hk, h⟩ := GoCode.ok_bind h
  cases GoTypes.camel_eq hk
  cases h
  have B : SBody [(v c!"err", .error), (v c!"target", .map .any), (v c!"instance", .ptr (.named (camel g.name)))] (camel g.name) := by
    refine ⟨fun e he => ?_, by simp [look_cons, v], by simp [look_cons, v]⟩
    simp only [List.mem_cons, List.not_mem_nil, or_false] at he
    rcases he with rfl | rfl | rfl <;> exact id
  have he : look [(v c!"err", .error), (v c!"target", .map .any), (v c!"instance", .ptr (.named (camel g.name)))] (v c!"err") =
    some .error := by simp [look_cons]
  unfold Func.ok
  rw [Bool.and_eq_true]
  refine ⟨?_, (acc_serialized B (.block' (m := 0) (.test (has_isNil (.x (n := 0) he) rfl) (.otherwise (m := 0)
    (.assign (r := .nil) rfl ((tgt_var (n := 0) (a := false) B.target trivial).stores rfl) .done)))
    (.append (b := true) (b' := true) (acc_serializeProps K ht hm B hprops) fun Γ' hx =>
      acc_registries K (B.ext hx) (by rw [hx.look (y := v c!"err") trivial]; exact he) (fun _ h => h) hregs))).okay⟩
  have key : ∀ t : GTy, (∀ k ∈ t.names, (W.structs.lookup k).isSome = true) → typeOk W (fun _ => none) t = true :=
    fun t ht => typeOk_of (Γ := []) (by simp [Quiet]) ht
  simp only [List.cons_append, List.nil_append, List.all_cons, List.all_nil, Bool.and_true, Bool.and_eq_true]
  exact ⟨key _ fun k hk => by cases List.mem_singleton.1 hk; exact K.graph, key _ (by simp [GTy.names, targetResult]),
    key _ (by simp [GTy.names])⟩

end

end Mapry.GoTyped
