import Verif.TransferMeans
import Verif.FloatLarge
import Verif.Props.Duration

/-!
# Values without parts from one language to another
-/

namespace Mapry.Interop

open Mapry.Duration
open Mapry.PyRuntime.Spec (Within FloatWithin SizeWithin boolNum)

section

variable {P Q : Ty → AVal → Prop} {key key' : Str → Str → Prop} {g : Graph}

theorem AllTy.imp {E F : Str → AVal → Prop} (h : ∀ t a, P t a → Q t a) (hE : ∀ name a, E name a → F name a) :
    ∀ (t : Ty) (a : AVal), AllTy P E t a → AllTy Q F t a := by
  intro t
  induction t with
  | array t lo hi ih => intro a ha; rw [AllTy] at ha ⊢; exact fun as e x hx => ih x (ha as e x hx)
  | map t ih => intro a ha; rw [AllTy] at ha ⊢; exact fun as e x hx => ih x.2 (ha as e x hx)
  | cls c => intro a ha; rw [AllTy]; trivial
  | embed name => intro a ha; rw [AllTy] at ha ⊢; exact hE name a ha
  | _ => intro a ha; exact h _ _ ha

theorem AllProps.imp {E F : Ty → AVal → Prop} (hE : ∀ t a, E t a → F t a) {ps : List Property} {fields : AFields}
    (h : AllProps E ps fields) : AllProps F ps fields := fun e he => hE _ _ (h e he)

theorem AllEmbed.imp (h : ∀ t a, P t a → Q t a) : ∀ (n : Nat) (name : Str) (a : AVal),
    AllEmbed P g n name a → AllEmbed Q g n name a
  | 0, _, _, _ => trivial
  | n + 1, _, _, ha => fun e fields he hf => (ha e fields he hf).imp (AllTy.imp h (AllEmbed.imp h n))

theorem AllGraph.imp (h : ∀ t a, P t a → Q t a) (hk : ∀ p s, key p s → key' p s) {n : Nat} {a : AGraph}
    (ha : AllGraph P key g n a) : AllGraph Q key' g n a := by
  have hE := AllTy.imp h (AllEmbed.imp (g := g) h n)
  exact ⟨ha.1.imp hE, fun e he i hi => ⟨fun p hp => hk _ _ ((ha.2 e he i hi).1 p hp), (ha.2 e he i hi).2.imp hE⟩⟩

end

section

variable {L : PyRuntime.Lib} {S : PyRuntime.Settings} {G : GoRuntime.Lib} {D : CppRuntime.DateLib} {C : CppRuntime.Lib}

/-! ## What is written is sound -/

theorem int64_sound {i : Int} (h : IsInt64 i) : Sound (.int i) := by
  unfold IsInt64 minInt64 maxInt64 at h
  obtain ⟨q, hq⟩ := F64.round_int_finite i (by omega)
  exact sound_int hq

theorem py_go_sound {t : Ty} {d : Doc} {a : AVal} (hw : (pyWriter L S).leaf t d a) (hv : (goLeaves G).leaf t d a) :
    Sound d := by
  cases t with
  | boolean => obtain ⟨c, rfl, _⟩ := hw; exact sound_bool c
  | integer b =>
    rcases hw with ⟨i, rfl, _⟩ | ⟨c, rfl, _⟩
    · obtain ⟨q, j, h1, h2, _⟩ := hv
      cases h1
      exact sound_int h2
    · exact sound_bool c
  | float b => obtain ⟨q, r, rfl, hr, _⟩ := hw; exact sound_real hr
  | string p => obtain ⟨s, rfl, _⟩ := hw; exact sound_str s
  | path p => obtain ⟨s, rfl, _⟩ := hw; exact sound_str s
  | date f => obtain ⟨t, rfl, _⟩ := hw; exact sound_str _
  | time f => obtain ⟨t, rfl, _⟩ := hw; exact sound_str _
  | datetime f => obtain ⟨t, rfl, _⟩ := hw; exact sound_str _
  | timeZone => obtain ⟨t, rfl, _⟩ := hw; exact sound_str _
  | duration => obtain ⟨t, rfl, _⟩ := hw; exact sound_str _
  | _ => exact hw.elim

theorem py_cpp_sound {t : Ty} {d : Doc} {a : AVal} (hw : (pyWriter L S).leaf t d a) (hv : (cppLeaves D C).leaf t d a) :
    Sound d := by
  cases t with
  | boolean => obtain ⟨c, rfl, _⟩ := hw; exact sound_bool c
  | integer b =>
    rcases hw with ⟨i, rfl, _⟩ | ⟨c, rfl, _⟩
    · obtain ⟨j, h1 | ⟨q, h1 | ⟨k, h1, _, rfl⟩, h2⟩, _, h3, _⟩ := hv
      · cases h1; exact int64_sound h3
      · cases h1
      · cases h1; exact sound_int h2
    · exact sound_bool c
  | float b => obtain ⟨q, r, rfl, hr, _⟩ := hw; exact sound_real hr
  | string p => obtain ⟨s, rfl, _⟩ := hw; exact sound_str s
  | path p => obtain ⟨s, rfl, _⟩ := hw; exact sound_str s
  | date f => obtain ⟨t, rfl, _⟩ := hw; exact sound_str _
  | time f => obtain ⟨t, rfl, _⟩ := hw; exact sound_str _
  | datetime f => obtain ⟨t, rfl, _⟩ := hw; exact sound_str _
  | timeZone => obtain ⟨t, rfl, _⟩ := hw; exact sound_str _
  | duration => obtain ⟨t, rfl, _⟩ := hw; exact sound_str _
  | _ => exact hw.elim

theorem go_sound {t : Ty} {d : Doc} {a : AVal} (hw : (goWriter G).leaf t d a) : Sound d := by
  cases t with
  | boolean => obtain ⟨c, rfl, _⟩ := hw; exact sound_bool c
  | integer b => obtain ⟨i, rfl, _, h, _⟩ := hw; exact int64_sound h
  | float b => obtain ⟨q, hd, _⟩ := hw; exact sound_digits hd
  | string p => obtain ⟨s, rfl, _⟩ := hw; exact sound_str s
  | path p => obtain ⟨s, rfl, _⟩ := hw; exact sound_str s
  | date f => obtain ⟨t, rfl, _⟩ := hw; exact sound_str _
  | time f => obtain ⟨t, rfl, _⟩ := hw; exact sound_str _
  | datetime f => obtain ⟨t, rfl, _⟩ := hw; exact sound_str _
  | timeZone => obtain ⟨t, rfl, _⟩ := hw; exact sound_str _
  | duration => obtain ⟨t, rfl, _⟩ := hw; exact sound_str _
  | _ => exact hw.elim

theorem cpp_sound {t : Ty} {d : Doc} {a : AVal} (hw : (cppWriter D C).leaf t d a) : Sound d := by
  cases t with
  | boolean => obtain ⟨c, rfl, _⟩ := hw; exact sound_bool c
  | integer b => obtain ⟨i, rfl, _, h, _⟩ := hw; exact int64_sound h
  | float b => obtain ⟨q, hd, _⟩ := hw; exact sound_digits hd
  | string p => obtain ⟨s, rfl, _⟩ := hw; exact sound_str s
  | path p => obtain ⟨s, rfl, _⟩ := hw; exact sound_str s
  | date f => obtain ⟨s, t, rfl, _⟩ := hw; exact sound_str _
  | time f => obtain ⟨s, t, rfl, _⟩ := hw; exact sound_str _
  | datetime f => obtain ⟨s, t, rfl, _⟩ := hw; exact sound_str _
  | timeZone => obtain ⟨t, rfl, _⟩ := hw; exact sound_str _
  | duration => obtain ⟨s, t, rfl, _⟩ := hw; exact sound_str _
  | _ => exact hw.elim

/-! ## Plain values cross over -/

/-- The value of a float is compared with the bounds in Python after it is rounded or, if it is written as an integer,
before. -/
theorem digits_py {b : Bounds} {q : Rat} {d : Doc} (hd : Digits q d) (hw : Within b q)
    (h : b = {} ∨ (-(2 ^ 53) < q ∧ q < 2 ^ 53)) : pyLeaf L S (.float b) d (.float (.fin q)) := by
  obtain ⟨r, h1, h2⟩ := hd
  cases d with
  | int i =>
    cases h1
    refine .inr ⟨i, q, .inl rfl, rfl, ?_, h2⟩
    rcases h with rfl | h
    · exact ⟨fun _ h => (by cases h), fun _ h => (by cases h), fun _ h => (by cases h), fun _ h => (by cases h)⟩
    · rw [← F64.round_int_small i h2 h]; exact hw
  | real p =>
    cases h1
    refine .inl ⟨r, rfl, by rw [h2], by rw [h2]; exact hw⟩
  | _ => cases h1

theorem digits_go {b : Bounds} {q : Rat} {d : Doc} (hd : Digits q d) (hw : Within b q) :
    ∃ r, number d = some r ∧ AVal.float (.fin q) = .float (F64.round r) ∧ FloatWithin b (F64.round r) := by
  obtain ⟨r, h1, h2⟩ := hd
  exact ⟨r, h1, by rw [h2], by rw [h2]; exact hw⟩

theorem plain_py_go {t : Ty} {a : AVal} {normal : Str → Prop}
    (h : PlainValue (pyWriter L S) (goLeaves G) normal t a) : CrossLeaf (pyWriter L S) (goLeaves G) t a := by
  cases t with
  | boolean => exact fun d hw => hw
  | integer b =>
    rintro d (⟨i, rfl, rfl, hw⟩ | ⟨c, rfl, rfl, hw⟩)
    · have hi := h.2 i rfl
      exact ⟨i, i, rfl, int_exact hi, rfl, (small_int64 hi).1, hw⟩
    · exact absurd rfl (h.1 c)
  | float b =>
    rintro d ⟨q, r, rfl, hr, rfl, hw⟩
    exact digits_go ⟨r, rfl, hr⟩ hw
  | string p =>
    rintro d ⟨s, rfl, rfl, hw⟩
    exact ⟨s, rfl, rfl, fun r e => h s rfl r e (hw r e)⟩
  | path p =>
    rintro d ⟨s, rfl, rfl, hw⟩
    exact ⟨s, rfl, rfl, fun r e => (h s rfl).2 r e⟩
  | date f => exact h
  | time f => exact h
  | datetime f => exact h
  | timeZone => exact h
  | duration =>
    rintro d ⟨x, rfl, rfl⟩
    have := (h _ rfl).2
    exact ⟨_, _, rfl, (Props.C17_from_python x (by omega)).1, rfl⟩
  | _ => exact fun d hw => hw.elim

theorem plain_py_cpp {t : Ty} {a : AVal} {normal : Str → Prop}
    (h : PlainValue (pyWriter L S) (cppLeaves D C) normal t a) : CrossLeaf (pyWriter L S) (cppLeaves D C) t a := by
  cases t with
  | boolean => exact fun d hw => hw
  | integer b =>
    rintro d (⟨i, rfl, rfl, hw⟩ | ⟨c, rfl, rfl, hw⟩)
    · have hi := h.2 i rfl
      exact ⟨i, .inl rfl, rfl, (small_int64 hi).1, hw⟩
    · exact absurd rfl (h.1 c)
  | float b =>
    rintro d ⟨q, r, rfl, hr, rfl, hw⟩
    exact digits_go ⟨r, rfl, hr⟩ hw
  | string p =>
    rintro d ⟨s, rfl, rfl, hw⟩
    exact ⟨s, rfl, rfl, fun r e => h s rfl r e (hw r e)⟩
  | path p =>
    rintro d ⟨s, rfl, rfl, hw⟩
    exact ⟨s, rfl, rfl, fun r e => (h s rfl).2 r e⟩
  | date f => exact h
  | time f => exact h
  | datetime f => exact h
  | timeZone => exact h
  | duration =>
    rintro d ⟨x, rfl, rfl⟩
    have := (h _ rfl).2
    exact ⟨_, _, rfl, (Props.C17_from_python x (by omega)).2, rfl⟩
  | _ => exact fun d hw => hw.elim

theorem not_min {x : Int} (h : (x.natAbs : Int) ≤ maxInt64) : IsInt64 x ∧ x ≠ minInt64 := by
  unfold IsInt64 minInt64 maxInt64 at *
  omega

theorem plain_go_py {t : Ty} {a : AVal}
    (h : PlainValue (goWriter G) (pyLeaves L S) (fun s => S.pathlib = true → L.normPath s = s) t a) :
    CrossLeaf (goWriter G) (pyLeaves L S) t a := by
  cases t with
  | boolean => exact fun d hw => hw
  | integer b =>
    rintro d ⟨i, rfl, rfl, _, hw⟩
    exact .inl ⟨i, rfl, rfl, hw⟩
  | float b =>
    rintro d ⟨q, hd, rfl, hw⟩
    exact digits_py (L := L) (S := S) hd hw (h.imp id fun h => h q rfl)
  | string p =>
    rintro d ⟨s, rfl, rfl, hw⟩
    exact ⟨s, rfl, rfl, fun r e => h s rfl r e (hw r e)⟩
  | path p =>
    rintro d ⟨s, rfl, rfl, hw⟩
    refine ⟨s, rfl, ?_, fun r e => (h s rfl).2 r e⟩
    split
    · next hp => rw [(h s rfl).1 hp]
    · rfl
  | date f => exact h
  | time f => exact h
  | datetime f => exact h
  | timeZone => exact h
  | duration =>
    rintro d ⟨x, rfl, rfl, hx⟩
    obtain ⟨h1, h2⟩ := h _ rfl
    obtain ⟨_, h3⟩ := not_min h2
    refine ⟨_, _, rfl, (Props.C17_to_python x hx h3 h1).2, ?_⟩
    congr 1
    unfold Timedelta at *
    omega
  | _ => exact fun d hw => hw.elim

theorem plain_go_cpp {t : Ty} {a : AVal} {normal : Str → Prop}
    (h : PlainValue (goWriter G) (cppLeaves D C) normal t a) : CrossLeaf (goWriter G) (cppLeaves D C) t a := by
  cases t with
  | boolean => exact fun d hw => hw
  | integer b =>
    rintro d ⟨i, rfl, rfl, h1, hw⟩
    exact ⟨i, .inl rfl, rfl, h1, hw⟩
  | float b =>
    rintro d ⟨q, hd, rfl, hw⟩
    exact digits_go hd hw
  | string p =>
    rintro d ⟨s, rfl, rfl, hw⟩
    exact ⟨s, rfl, rfl, fun r e => h s rfl r e (hw r e)⟩
  | path p =>
    rintro d ⟨s, rfl, rfl, hw⟩
    exact ⟨s, rfl, rfl, fun r e => (h s rfl).2 r e⟩
  | date f => exact h
  | time f => exact h
  | datetime f => exact h
  | timeZone => exact h
  | duration =>
    rintro d ⟨x, rfl, rfl, hx⟩
    obtain ⟨h1, h2⟩ := h _ rfl
    obtain ⟨_, h3⟩ := not_min h2
    obtain ⟨s, e1, e2⟩ := Props.C16_cpp_round_trip_partial x hx h3
    rw [cppToString_eq_go x h3] at e1
    cases e1
    exact ⟨_, _, rfl, e2, rfl⟩
  | _ => exact fun d hw => hw.elim

theorem plain_cpp_py {t : Ty} {a : AVal}
    (h : PlainValue (cppWriter D C) (pyLeaves L S) (fun s => S.pathlib = true → L.normPath s = s) t a) :
    CrossLeaf (cppWriter D C) (pyLeaves L S) t a := by
  cases t with
  | boolean => exact fun d hw => hw
  | integer b =>
    rintro d ⟨i, rfl, rfl, _, hw⟩
    exact .inl ⟨i, rfl, rfl, hw⟩
  | float b =>
    rintro d ⟨q, hd, rfl, hw⟩
    exact digits_py (L := L) (S := S) hd hw (h.imp id fun h => h q rfl)
  | string p =>
    rintro d ⟨s, rfl, rfl, hw⟩
    exact ⟨s, rfl, rfl, fun r e => h s rfl r e (hw r e)⟩
  | path p =>
    rintro d ⟨s, rfl, rfl, hw⟩
    refine ⟨s, rfl, ?_, fun r e => (h s rfl).2 r e⟩
    split
    · next hp => rw [(h s rfl).1 hp]
    · rfl
  | date f => exact h
  | time f => exact h
  | datetime f => exact h
  | timeZone => exact h
  | duration =>
    rintro d ⟨s, x, rfl, hs, rfl, hx, h3⟩
    obtain ⟨h1, h2⟩ := h _ rfl
    obtain ⟨e1, e2⟩ := Props.C17_to_python x hx h3 h1
    rw [hs] at e1
    cases e1
    refine ⟨_, _, rfl, e2, ?_⟩
    congr 1
    unfold Timedelta at *
    omega
  | _ => exact fun d hw => hw.elim

theorem plain_cpp_go {t : Ty} {a : AVal} {normal : Str → Prop}
    (h : PlainValue (cppWriter D C) (goLeaves G) normal t a) : CrossLeaf (cppWriter D C) (goLeaves G) t a := by
  cases t with
  | boolean => exact fun d hw => hw
  | integer b =>
    rintro d ⟨i, rfl, rfl, h1, hw⟩
    exact ⟨i, i, rfl, int_exact (h.2 i rfl), rfl, h1, hw⟩
  | float b =>
    rintro d ⟨q, hd, rfl, hw⟩
    exact digits_go hd hw
  | string p =>
    rintro d ⟨s, rfl, rfl, hw⟩
    exact ⟨s, rfl, rfl, fun r e => h s rfl r e (hw r e)⟩
  | path p =>
    rintro d ⟨s, rfl, rfl, hw⟩
    exact ⟨s, rfl, rfl, fun r e => (h s rfl).2 r e⟩
  | date f => exact h
  | time f => exact h
  | datetime f => exact h
  | timeZone => exact h
  | duration =>
    rintro d ⟨s, x, rfl, hs, rfl, hx, h3⟩
    rw [cppToString_eq_go x h3] at hs
    cases hs
    exact ⟨_, _, rfl, Props.C15_go_round_trip_partial x hx h3, rfl⟩
  | _ => exact fun d hw => hw.elim

end

end Mapry.Interop
