import Mathlib.Analysis.SpecialFunctions.Trigonometric.Basic
import Verif.Model.TempDsp
import Verif.Props.Utils
import Verif.Props.RoundedSensors

/-
Claims about the complex numbers of `temp/dsp` (C91).
-/

set_option linter.unusedSectionVars false
set_option linter.unusedSimpArgs false

namespace Verif
open Scalar

namespace TempDsp

theorem valid_ok {F : Type} [Scalar F] {x : F} (h : Finite x) : Utils.isValidValue x = .ok () := by
  simp [Utils.isValidValue, h.1, h.2]

theorem valid_err {F : Type} [Scalar F] {x : F} (h : ¬Finite x) : ∃ e, Utils.isValidValue x = .error (.err e) := by
  unfold Utils.isValidValue
  cases h1 : isNaN x
  · cases h2 : isInf x
    · exact absurd ⟨h1, h2⟩ h
    · exact ⟨_, rfl⟩
  · exact ⟨_, rfl⟩

namespace Complex
section
variable {F : Type} [Scalar F] {z z1 z2 : Complex F}

theorem re_ok (h : Finite z.re) : getRealPart z = .ok z.re := by unfold getRealPart; rw [valid_ok h]; rfl
theorem im_ok (h : Finite z.im) : getImaginaryPart z = .ok z.im := by unfold getImaginaryPart; rw [valid_ok h]; rfl
theorem re_err (h : ¬Finite z.re) : ∃ e, getRealPart z = .error (.err e) := by
  obtain ⟨e, he⟩ := valid_err h
  exact ⟨e, by unfold getRealPart; rw [he]; rfl⟩
theorem im_err (h : ¬Finite z.im) : ∃ e, getImaginaryPart z = .error (.err e) := by
  obtain ⟨e, he⟩ := valid_err h
  exact ⟨e, by unfold getImaginaryPart; rw [he]; rfl⟩
theorem set_re {a : F} (h : Finite a) (s : Complex F) : setRealPart a s = (.ok (), ⟨a, s.im⟩) := by
  unfold setRealPart; rw [valid_ok h]; rfl
theorem set_im {a : F} (h : Finite a) (s : Complex F) : setImaginaryPart a s = (.ok (), ⟨s.re, a⟩) := by
  unfold setImaginaryPart; rw [valid_ok h]; rfl

/-- C91: `new` accepts exactly the finite arguments, and keeps them. -/
theorem C91_new (a b : F) : ((∃ z, new a b = .ok z) ↔ Finite a ∧ Finite b) ∧
    ∀ z, new a b = .ok z → z.re = a ∧ z.im = b := by
  unfold new
  by_cases ha : Finite a
  · rw [valid_ok ha]
    by_cases hb : Finite b
    · rw [valid_ok hb]
      exact ⟨⟨fun _ => ⟨ha, hb⟩, fun _ => ⟨_, rfl⟩⟩, fun z h => by cases h; exact ⟨rfl, rfl⟩⟩
    · obtain ⟨e, he⟩ := valid_err hb
      rw [he]
      exact ⟨⟨fun ⟨_, h⟩ => (by cases h), fun h => absurd h.2 hb⟩, fun z h => by cases h⟩
  · obtain ⟨e, he⟩ := valid_err ha
    rw [he]
    exact ⟨⟨fun ⟨_, h⟩ => (by cases h), fun h => absurd h.1 ha⟩, fun z h => by cases h⟩

theorem new_ok {a b : F} (ha : Finite a) (hb : Finite b) : new a b = .ok ⟨a, b⟩ := by
  obtain ⟨z, h⟩ := (C91_new a b).1.mpr ⟨ha, hb⟩
  obtain ⟨k1, k2⟩ := (C91_new a b).2 z h
  obtain ⟨r, i⟩ := z
  obtain rfl : r = a := k1
  obtain rfl : i = b := k2
  exact h

/-- C91: the getters return exactly the finite components; the setters store finite values in their component, and
refuse the others without effect. -/
theorem C91_access (a : F) (z : Complex F) :
    (∀ x, getRealPart z = .ok x ↔ Finite z.re ∧ x = z.re) ∧ (∀ x, getImaginaryPart z = .ok x ↔ Finite z.im ∧ x = z.im) ∧
    (Finite a → setRealPart a z = (.ok (), ⟨a, z.im⟩) ∧ setImaginaryPart a z = (.ok (), ⟨z.re, a⟩)) ∧
    (¬Finite a → ∃ e, setRealPart a z = (.error (.err e), z) ∧ setImaginaryPart a z = (.error (.err e), z)) := by
  refine ⟨fun x => ?_, fun x => ?_, fun h => ⟨set_re h z, set_im h z⟩, fun h => ?_⟩
  · by_cases h : Finite z.re
    · rw [re_ok h]
      exact ⟨fun k => ⟨h, (Except.ok.inj k).symm⟩, fun k => by rw [k.2]⟩
    · obtain ⟨e, he⟩ := re_err h
      rw [he]
      exact ⟨fun k => (by cases k), fun k => absurd k.1 h⟩
  · by_cases h : Finite z.im
    · rw [im_ok h]
      exact ⟨fun k => ⟨h, (Except.ok.inj k).symm⟩, fun k => by rw [k.2]⟩
    · obtain ⟨e, he⟩ := im_err h
      rw [he]
      exact ⟨fun k => (by cases k), fun k => absurd k.1 h⟩
  · obtain ⟨e, he⟩ := valid_err h
    refine ⟨e, ?_, ?_⟩
    · unfold setRealPart; rw [he]; rfl
    · unfold setImaginaryPart; rw [he]; rfl

/-- C91: `convert_from_polar` checks both arguments before it computes anything: a radius that is NaN or infinite is
reported as such and changes nothing; so is an angle, after a finite radius. -/
theorem C91_polar (r θ : F) (s : Complex F) :
    (isNaN r = true → convertFromPolar r θ s = (.error (.err .Nan), s)) ∧
    (isNaN r = false → isInf r = true → convertFromPolar r θ s = (.error (.err .Inf), s)) ∧
    (Finite r → isNaN θ = true → convertFromPolar r θ s = (.error (.err .Nan), s)) ∧
    (Finite r → isNaN θ = false → isInf θ = true → convertFromPolar r θ s = (.error (.err .Inf), s)) := by
  have k1 : ∀ x : F, isNaN x = true → Utils.isValidValue x = .error (.err .Nan) := fun x h => by
    simp [Utils.isValidValue, h, fail]
  have k2 : ∀ x : F, isNaN x = false → isInf x = true → Utils.isValidValue x = .error (.err .Inf) := fun x h h' => by
    simp [Utils.isValidValue, h, h', fail]
  refine ⟨fun h => ?_, fun h h' => ?_, fun hr h => ?_, fun hr h h' => ?_⟩
  · unfold convertFromPolar; rw [k1 r h]; rfl
  · unfold convertFromPolar; rw [k2 r h h']; rfl
  · unfold convertFromPolar; rw [valid_ok hr, k1 θ h]; rfl
  · unfold convertFromPolar; rw [valid_ok hr, k2 θ h h']; rfl

/-- An infinite angle: the cosine would be NaN. -/
example (s : Complex XR) : convertFromPolar (.fin 1) .pinf s = (.error (.err .Inf), s) :=
  (C91_polar _ _ s).2.2.2 (Ext.finite_fin 1) rfl rfl

/-- C91: `copy_from` and `duplicate` copy a number with finite components, and refuse others without effect. -/
theorem C91_copy [ScalarLawful F] (z s : Complex F) :
    (Finite z.re → Finite z.im → copyFrom z s = (.ok (), z) ∧ duplicate z = .ok z) ∧
    (¬(Finite z.re ∧ Finite z.im) → ∃ e, copyFrom z s = (.error (.err e), s) ∧ duplicate z = .error (.err e)) := by
  have hd : ∀ t : Res UtilsError Unit × Complex F, copyFrom z (⟨lit 0, lit 0⟩ : Complex F) = t →
      duplicate z = exec ⟨lit 0, lit 0⟩ (copyFrom z) := fun t _ => by
    unfold duplicate
    rw [new_ok ScalarLawful.zero_finite ScalarLawful.zero_finite]
    rfl
  constructor
  · intro h1 h2
    have k : ∀ s, copyFrom z s = (.ok (), z) := fun s => by
      unfold copyFrom
      rw [re_ok h1, im_ok h2]
      simp only [Op.liftOk_bind]
      rw [Op.bind_ok (set_re h1 _), set_im h2]
    exact ⟨k s, by rw [hd _ rfl]; exact exec_ok (k _)⟩
  · intro h
    suffices k : ∃ e, ∀ s, copyFrom z s = (.error (.err e), s) by
      obtain ⟨e, k⟩ := k
      exact ⟨e, k s, by rw [hd _ rfl, exec, k]⟩
    unfold copyFrom
    by_cases h1 : Finite z.re
    · obtain ⟨e, he⟩ := im_err fun h2 => h ⟨h1, h2⟩
      exact ⟨e, fun s => by rw [re_ok h1, he]; rfl⟩
    · obtain ⟨e, he⟩ := re_err h1
      exact ⟨e, fun s => by rw [he]; rfl⟩

/-- C91: `add` stores the two sums of finite operands; when the real parts are finite and an imaginary part is
not, it fails with the real part already replaced; otherwise it fails without effect. -/
theorem C91_add (z1 z2 s : Complex F) :
    (Finite z1.re → Finite z2.re → Finite z1.im → Finite z2.im →
      add z1 z2 s = (.ok (), ⟨z1.re +ᶠ z2.re, z1.im +ᶠ z2.im⟩)) ∧
    (Finite z1.re → Finite z2.re → ¬(Finite z1.im ∧ Finite z2.im) →
      ∃ e, add z1 z2 s = (.error (.err e), ⟨z1.re +ᶠ z2.re, s.im⟩)) ∧
    (¬(Finite z1.re ∧ Finite z2.re) → ∃ e, add z1 z2 s = (.error (.err e), s)) := by
  unfold add
  refine ⟨fun h1 h2 h3 h4 => ?_, fun h1 h2 h => ?_, fun h => ?_⟩
  · rw [re_ok h1, re_ok h2, im_ok h3, im_ok h4]; rfl
  · rw [re_ok h1, re_ok h2]
    by_cases h3 : Finite z1.im
    · obtain ⟨e, he⟩ := im_err fun h4 => h ⟨h3, h4⟩
      exact ⟨e, by rw [im_ok h3, he]; rfl⟩
    · obtain ⟨e, he⟩ := im_err h3
      exact ⟨e, by rw [he]; rfl⟩
  · by_cases h1 : Finite z1.re
    · obtain ⟨e, he⟩ := re_err fun h2 => h ⟨h1, h2⟩
      exact ⟨e, by rw [re_ok h1, he]; rfl⟩
    · obtain ⟨e, he⟩ := re_err h1
      exact ⟨e, by rw [he]; rfl⟩

/-- C91: the same for `sub`. -/
theorem C91_sub (z1 z2 s : Complex F) :
    (Finite z1.re → Finite z2.re → Finite z1.im → Finite z2.im →
      sub z1 z2 s = (.ok (), ⟨z1.re -ᶠ z2.re, z1.im -ᶠ z2.im⟩)) ∧
    (Finite z1.re → Finite z2.re → ¬(Finite z1.im ∧ Finite z2.im) →
      ∃ e, sub z1 z2 s = (.error (.err e), ⟨z1.re -ᶠ z2.re, s.im⟩)) ∧
    (¬(Finite z1.re ∧ Finite z2.re) → ∃ e, sub z1 z2 s = (.error (.err e), s)) := by
  unfold sub
  refine ⟨fun h1 h2 h3 h4 => ?_, fun h1 h2 h => ?_, fun h => ?_⟩
  · rw [re_ok h1, re_ok h2, im_ok h3, im_ok h4]; rfl
  · rw [re_ok h1, re_ok h2]
    by_cases h3 : Finite z1.im
    · obtain ⟨e, he⟩ := im_err fun h4 => h ⟨h3, h4⟩
      exact ⟨e, by rw [im_ok h3, he]; rfl⟩
    · obtain ⟨e, he⟩ := im_err h3
      exact ⟨e, by rw [he]; rfl⟩
  · by_cases h1 : Finite z1.re
    · obtain ⟨e, he⟩ := re_err fun h2 => h ⟨h1, h2⟩
      exact ⟨e, by rw [re_ok h1, he]; rfl⟩
    · obtain ⟨e, he⟩ := re_err h1
      exact ⟨e, by rw [he]; rfl⟩

/-- C91: the in-place sum and difference check the other operand only, whatever the receiver holds, and fail in
the same half-written way. -/
theorem C91_in_place (z s : Complex F) :
    (Finite z.re → Finite z.im → addInPlace z s = (.ok (), ⟨s.re +ᶠ z.re, s.im +ᶠ z.im⟩) ∧
      subInPlace z s = (.ok (), ⟨s.re -ᶠ z.re, s.im -ᶠ z.im⟩)) ∧
    (Finite z.re → ¬Finite z.im → ∃ e, addInPlace z s = (.error (.err e), ⟨s.re +ᶠ z.re, s.im⟩) ∧
      subInPlace z s = (.error (.err e), ⟨s.re -ᶠ z.re, s.im⟩)) ∧
    (¬Finite z.re → ∃ e, addInPlace z s = (.error (.err e), s) ∧ subInPlace z s = (.error (.err e), s)) := by
  unfold addInPlace subInPlace
  refine ⟨fun h1 h2 => ?_, fun h1 h2 => ?_, fun h => ?_⟩
  · rw [re_ok h1, im_ok h2]; exact ⟨rfl, rfl⟩
  · obtain ⟨e, he⟩ := im_err h2
    rw [re_ok h1, he]; exact ⟨e, rfl, rfl⟩
  · obtain ⟨e, he⟩ := re_err h
    rw [he]; exact ⟨e, rfl, rfl⟩

/-- C91: a product that fails has no effect; it fails exactly when a component of an operand is not finite.  The
product may itself be infinite. -/
theorem C91_mul (z1 z2 s : Complex F) :
    (Finite z1.re → Finite z2.re → Finite z1.im → Finite z2.im →
      mul z1 z2 s = (.ok (), ⟨z1.re *ᶠ z2.re -ᶠ z1.im *ᶠ z2.im, z1.re *ᶠ z2.im +ᶠ z1.im *ᶠ z2.re⟩) ∧
      mulInPlace z2 z1 = (.ok (), ⟨z1.re *ᶠ z2.re -ᶠ z1.im *ᶠ z2.im, z1.re *ᶠ z2.im +ᶠ z1.im *ᶠ z2.re⟩)) ∧
    (¬(Finite z1.re ∧ Finite z2.re ∧ Finite z1.im ∧ Finite z2.im) →
      (∃ e, mul z1 z2 s = (.error (.err e), s)) ∧ ∃ e, mulInPlace z2 z1 = (.error (.err e), z1)) := by
  refine ⟨fun h1 h2 h3 h4 => ?_, fun h => ⟨?_, ?_⟩⟩
  · unfold mul mulInPlace
    rw [Op.get_bind', re_ok h1, re_ok h2, im_ok h3, im_ok h4]
    exact ⟨rfl, rfl⟩
  · unfold mul
    by_cases h1 : Finite z1.re
    · rw [re_ok h1]
      by_cases h2 : Finite z2.re
      · rw [re_ok h2]
        by_cases h3 : Finite z1.im
        · rw [im_ok h3]
          obtain ⟨e, he⟩ := im_err fun h4 => h ⟨h1, h2, h3, h4⟩
          exact ⟨e, by rw [he]; rfl⟩
        · obtain ⟨e, he⟩ := im_err h3
          exact ⟨e, by rw [he]; rfl⟩
      · obtain ⟨e, he⟩ := re_err h2
        exact ⟨e, by rw [he]; rfl⟩
    · obtain ⟨e, he⟩ := re_err h1
      exact ⟨e, by rw [he]; rfl⟩
  · unfold mulInPlace
    rw [Op.get_bind']
    by_cases h1 : Finite z1.re
    · rw [re_ok h1]
      by_cases h3 : Finite z1.im
      · rw [im_ok h3]
        by_cases h2 : Finite z2.re
        · rw [re_ok h2]
          obtain ⟨e, he⟩ := im_err fun h4 => h ⟨h1, h2, h3, h4⟩
          exact ⟨e, by rw [he]; rfl⟩
        · obtain ⟨e, he⟩ := re_err h2
          exact ⟨e, by rw [he]; rfl⟩
      · obtain ⟨e, he⟩ := im_err h3
        exact ⟨e, by rw [he]; rfl⟩
    · obtain ⟨e, he⟩ := re_err h1
      exact ⟨e, by rw [he]; rfl⟩

/-- C91: a failed quotient, conjugate, copy or exponential has no effect. -/
theorem C91_atomic {e : Fail UtilsError} {s s' : Complex F} :
    (div z1 z2 s = (.error e, s') → s' = s) ∧ (conjugate s = (.error e, s') → s' = s) ∧
    (expo s = (.error e, s') → s' = s) := by
  have lift : ∀ {α : Type} (r : Res UtilsError α) (k : α → Op UtilsError (Complex F) Unit),
      (∀ a, k a s = (.error e, s') → s' = s) → (liftM r >>= k) s = (.error e, s') → s' = s := by
    intro α r k hk h
    rw [Op.liftM_bind_run] at h
    rcases r with r | a
    · exact (congrArg Prod.snd h).symm
    · exact hk a h
  refine ⟨?_, ?_, ?_⟩
  · unfold div
    iterate 6 refine lift _ _ fun _ => ?_
    split
    · exact fun h => (congrArg Prod.snd h).symm
    · exact fun h => by cases congrArg Prod.fst h
  · unfold conjugate
    rw [Op.get_bind']
    refine lift _ _ fun a => lift _ _ fun _ h => by cases congrArg Prod.fst h
  · unfold expo
    rw [Op.get_bind']
    refine lift _ _ fun a => lift _ _ fun b => ?_
    split
    · exact fun h => by cases congrArg Prod.fst h
    · exact fun h => by cases congrArg Prod.fst h

/-- C91: `swap` exchanges two finite numbers; when the real parts are finite and an imaginary part is not, it fails
after exchanging the real parts only; otherwise it fails without effect. -/
theorem C91_swap (z w : Complex F) :
    (Finite z.re → Finite w.re → Finite z.im → Finite w.im → swap (z, w) = (.ok (), (w, z))) ∧
    (Finite z.re → Finite w.re → ¬(Finite z.im ∧ Finite w.im) →
      ∃ e, swap (z, w) = (.error (.err e), (⟨w.re, z.im⟩, ⟨z.re, w.im⟩))) ∧
    (¬(Finite z.re ∧ Finite w.re) → ∃ e, swap (z, w) = (.error (.err e), (z, w))) := by
  unfold swap
  simp only [Op.get_bind']
  refine ⟨fun h1 h2 h3 h4 => ?_, fun h1 h2 h => ?_, fun h => ?_⟩
  · rw [re_ok h1, re_ok h2]
    simp only [Op.liftOk_bind]
    rw [im_ok (z := ⟨w.re, z.im⟩) h3, im_ok (z := ⟨z.re, w.im⟩) h4]
    rfl
  · rw [re_ok h1, re_ok h2]
    simp only [Op.liftOk_bind]
    by_cases h3 : Finite z.im
    · obtain ⟨e, he⟩ := im_err (z := ⟨z.re, w.im⟩) fun h4 => h ⟨h3, h4⟩
      exact ⟨e, by rw [im_ok (z := ⟨w.re, z.im⟩) h3, he]; rfl⟩
    · obtain ⟨e, he⟩ := im_err (z := ⟨w.re, z.im⟩) h3
      exact ⟨e, by rw [he]; rfl⟩
  · by_cases h1 : Finite z.re
    · obtain ⟨e, he⟩ := re_err fun h2 => h ⟨h1, h2⟩
      exact ⟨e, by rw [re_ok h1, he]; rfl⟩
    · obtain ⟨e, he⟩ := re_err h1
      exact ⟨e, by rw [he]; rfl⟩

/-- C91: `expo` does not look at the imaginary part: it succeeds for one that is not finite, if the exponential of
the real part is finite. -/
theorem C91_expo_unchecked [ScalarLawful F] (h1 : Finite z.re) (h2 : Finite (Scalar.exp z.re)) :
    ∃ w, expo z = (.ok (), w) := by
  unfold expo
  rw [Op.get_bind', re_ok h1]
  simp only [Op.liftOk_bind, Utils.allclose]
  rw [valid_ok h2, valid_ok ScalarLawful.zero_finite]
  simp only [Res.ok_bind, Op.liftOk_bind]
  split
  · exact ⟨_, rfl⟩
  · exact ⟨_, rfl⟩

end

/-- The number `z` that is stored is the complex number `c`. -/
def Is (z : Complex XR) (c : ℂ) : Prop := z.re = .fin c.re ∧ z.im = .fin c.im

section
variable {z z1 z2 : Complex XR} {c c1 c2 : ℂ}

/-- C91: in exact arithmetic sum, difference and product, into any receiver or in place. -/
theorem C91_ring (s : Complex XR) (h1 : z1.Is c1) (h2 : z2.Is c2) :
    (∃ r, add z1 z2 s = (.ok (), r) ∧ addInPlace z2 z1 = (.ok (), r) ∧ r.Is (c1 + c2)) ∧
    (∃ r, sub z1 z2 s = (.ok (), r) ∧ subInPlace z2 z1 = (.ok (), r) ∧ r.Is (c1 - c2)) ∧
    (∃ r, mul z1 z2 s = (.ok (), r) ∧ mulInPlace z2 z1 = (.ok (), r) ∧ r.Is (c1 * c2)) := by
  obtain ⟨r1, i1⟩ := z1
  obtain ⟨r2, i2⟩ := z2
  obtain ⟨rfl, rfl⟩ := h1
  obtain ⟨rfl, rfl⟩ := h2
  refine ⟨⟨_, rfl, rfl, ?_⟩, ⟨_, rfl, rfl, ?_⟩, ⟨_, rfl, rfl, ?_⟩⟩
  · exact ⟨rfl, rfl⟩
  · exact ⟨by simp, by simp⟩
  · exact ⟨by simp, by simp⟩

/-- C91: in exact arithmetic opposite and conjugate, in place. -/
theorem C91_neg (h : z.Is c) :
    (∃ r, neg z = (.ok (), r) ∧ r.Is (-c)) ∧
    (∃ r, conjugate z = (.ok (), r) ∧ r.Is ((starRingEnd ℂ) c)) := by
  obtain ⟨r, i⟩ := z
  obtain ⟨rfl, rfl⟩ := h
  exact ⟨⟨⟨.fin (-c.re), .fin (-c.im)⟩, rfl, by exact ⟨rfl, rfl⟩⟩, ⟨⟨.fin c.re, .fin (-c.im)⟩, rfl, by exact ⟨rfl, rfl⟩⟩⟩

theorem close_fin (x : ℝ) : Utils.allclose (.fin x : XR) (.fin 0) EPSILON = .ok (decide (|x| ≤ epsilon ℝ)) := by
  have e : (EPSILON : XR) = .fin (epsilon ℝ) := Ext.epsilon_eq
  rw [e, (Utils.C60_allclose_exact x 0 _).1, sub_zero]

/-- C91: in exact arithmetic division is division, and fails exactly when both components of the denominator are at
most the threshold in size; the receiver then stays as it was. -/
theorem C91_div (s : Complex XR) (h1 : z1.Is c1) (h2 : z2.Is c2) :
    (¬(|c2.re| ≤ epsilon ℝ ∧ |c2.im| ≤ epsilon ℝ) →
      ∃ r, div z1 z2 s = (.ok (), r) ∧ r.Is (c1 / c2)) ∧
    (|c2.re| ≤ epsilon ℝ → |c2.im| ≤ epsilon ℝ → div z1 z2 s = (.error (.err .Inf), s)) := by
  obtain ⟨r1, i1⟩ := z1
  obtain ⟨r2, i2⟩ := z2
  obtain ⟨rfl, rfl⟩ := h1
  obtain ⟨rfl, rfl⟩ := h2
  have g1 : ∀ a b : ℝ, getRealPart (⟨.fin a, .fin b⟩ : Complex XR) = .ok (.fin a) := fun _ _ => rfl
  have g2 : ∀ a b : ℝ, getImaginaryPart (⟨.fin a, .fin b⟩ : Complex XR) = .ok (.fin b) := fun _ _ => rfl
  constructor
  · intro h
    have hne : c2.re * c2.re + c2.im * c2.im ≠ 0 := by
      intro h0
      apply h
      have a : c2.re = 0 := by nlinarith [mul_self_nonneg c2.re, mul_self_nonneg c2.im]
      have b : c2.im = 0 := by nlinarith [mul_self_nonneg c2.re, mul_self_nonneg c2.im]
      rw [a, b, abs_zero]
      exact ⟨(Linalg.eps_pos (K := ℝ)).le, (Linalg.eps_pos (K := ℝ)).le⟩
    refine ⟨⟨.fin (c1 / c2).re, .fin (c1 / c2).im⟩, ?_, by exact ⟨rfl, rfl⟩⟩
    have e1 : (c1 / c2).re = (c1.re * c2.re + c1.im * c2.im) / (c2.re * c2.re + c2.im * c2.im) := by
      rw [_root_.Complex.div_re, _root_.Complex.normSq_apply]; ring
    have e2 : (c1 / c2).im = (c1.im * c2.re - c1.re * c2.im) / (c2.re * c2.re + c2.im * c2.im) := by
      rw [_root_.Complex.div_im, _root_.Complex.normSq_apply]; ring
    unfold div
    simp only [g1, g2, Ext.lit_zero, close_fin, Op.liftOk_bind]
    by_cases h3 : |c2.re| ≤ epsilon ℝ
    · have h4 : ¬|c2.im| ≤ epsilon ℝ := fun h4 => h ⟨h3, h4⟩
      simp only [h3, h4, decide_true, decide_false, if_true, Op.liftOk_bind, Bool.false_eq_true, if_false,
        Ext.mul_fin, Ext.add_fin, Ext.sub_fin, Ext.div_fin _ hne, e1, e2]
      rfl
    · simp only [h3, decide_false, Op.liftOk_bind, Bool.false_eq_true, if_false,
        Ext.mul_fin, Ext.add_fin, Ext.sub_fin, Ext.div_fin _ hne, e1, e2]
      rfl
  · intro h3 h4
    unfold div
    simp only [g1, g2, Ext.lit_zero, close_fin, Op.liftOk_bind, h3, h4, decide_true, if_true]
    rfl

/-- C91: in exact arithmetic `calculate_module` is the modulus, cut to 0 when it is at most the threshold. -/
theorem C91_module (h : z.Is c) :
    calculateModule z = .ok (.fin (if ‖c‖ ≤ epsilon ℝ then 0 else ‖c‖)) := by
  obtain ⟨r, i⟩ := z
  obtain ⟨rfl, rfl⟩ := h
  have e : Scalar.sqrt ((.fin c.re : XR) *ᶠ .fin c.re +ᶠ .fin c.im *ᶠ .fin c.im) = .fin ‖c‖ := by
    rw [Ext.mul_fin, Ext.mul_fin, Ext.add_fin,
      Ext.sqrt_fin (by nlinarith [mul_self_nonneg c.re, mul_self_nonneg c.im]),
      _root_.Complex.norm_def, _root_.Complex.normSq_apply]
    rfl
  have g1 : ∀ a b : ℝ, getRealPart (⟨.fin a, .fin b⟩ : Complex XR) = .ok (.fin a) := fun _ _ => rfl
  have g2 : ∀ a b : ℝ, getImaginaryPart (⟨.fin a, .fin b⟩ : Complex XR) = .ok (.fin b) := fun _ _ => rfl
  unfold calculateModule
  simp only [g1, g2, Res.ok_bind, e, close_fin, abs_norm, Ext.lit_zero]
  by_cases h : ‖c‖ ≤ epsilon ℝ
  · simp only [h, decide_true, if_true]
  · simp only [h, decide_false, Bool.false_eq_true, if_false]

/-- C91: in exact arithmetic `expo` is the exponential, cut to 0 when its modulus is at most the threshold, and
`convert_from_polar` stores `r·exp(iθ)`. -/
theorem C91_exp (h : z.Is c) (r θ : ℝ) (s : Complex XR) :
    (∃ w, expo z = (.ok (), w) ∧
      w.Is (if ‖_root_.Complex.exp c‖ ≤ epsilon ℝ then 0 else _root_.Complex.exp c)) ∧
    ∃ w, convertFromPolar (.fin r) (.fin θ) s = (.ok (), w) ∧ w.Is (r * _root_.Complex.exp (θ * _root_.Complex.I)) := by
  constructor
  · obtain ⟨r, i⟩ := z
    obtain ⟨rfl, rfl⟩ := h
    have e1 : Scalar.exp (.fin c.re : XR) = .fin (Real.exp c.re) := rfl
    have e2 : Scalar.cos (.fin c.im : XR) = .fin (Real.cos c.im) := rfl
    have e3 : Scalar.sin (.fin c.im : XR) = .fin (Real.sin c.im) := rfl
    have g1 : ∀ a b : ℝ, getRealPart (⟨.fin a, .fin b⟩ : Complex XR) = .ok (.fin a) := fun _ _ => rfl
    unfold expo
    simp only [Op.get_bind', g1, e1, e2, e3, close_fin, Op.liftOk_bind, Real.abs_exp,
      _root_.Complex.norm_exp, Ext.mul_fin, Ext.lit_zero]
    by_cases h : Real.exp c.re ≤ epsilon ℝ
    · simp only [h, decide_true, if_true]
      exact ⟨⟨.fin 0, .fin 0⟩, rfl, by exact ⟨rfl, rfl⟩⟩
    · simp only [h, decide_false, Bool.false_eq_true, if_false]
      refine ⟨_, rfl, ?_, ?_⟩
      · rw [_root_.Complex.exp_re]
      · rw [_root_.Complex.exp_im]
  · refine ⟨⟨.fin (r * Real.cos θ), .fin (r * Real.sin θ)⟩, rfl, ?_, ?_⟩
    · simp [_root_.Complex.exp_ofReal_mul_I_re]
    · simp [_root_.Complex.exp_ofReal_mul_I_im]

end

/-- The quotient of `1 + 2i` by `3 - i`; a denominator of modulus 1.4e-4 is refused. -/
example : ∃ z1 z2 : Complex XR, z1.Is ⟨1, 2⟩ ∧ z2.Is ⟨3, -1⟩ ∧
    (∃ r, div z1 z2 z1 = (.ok (), r) ∧ r.Is ⟨1/10, 7/10⟩) ∧
    div z1 ⟨.fin (1 / 10000), .fin (1 / 10000)⟩ z1 = (.error (.err .Inf), z1) := by
  have h1 : Is ⟨.fin 1, .fin 2⟩ ⟨1, 2⟩ := ⟨rfl, rfl⟩
  have h2 : Is ⟨.fin 3, .fin (-1)⟩ ⟨3, -1⟩ := ⟨rfl, rfl⟩
  refine ⟨_, _, h1, h2, ?_, ?_⟩
  · obtain ⟨r, e, h⟩ := (C91_div ⟨.fin 1, .fin 2⟩ h1 h2).1 (by
      intro h
      have := h.1
      norm_num [epsilon] at this)
    refine ⟨r, e, ?_⟩
    convert h using 1
    apply _root_.Complex.ext <;> norm_num [_root_.Complex.div_re, _root_.Complex.div_im, _root_.Complex.normSq_apply]
  · exact (C91_div _ h1 (c2 := ⟨1 / 10000, 1 / 10000⟩) ⟨rfl, rfl⟩).2 (by norm_num [epsilon]) (by norm_num [epsilon])

/-- In binary32 an overflowing sum is stored with success; reading it fails, and adding it to `1 + 2i` is refused after the
real part has been replaced, because only the imaginary part overflowed. -/
example : ∃ w : Complex F32, add ⟨lit 1, lit (2 ^ 127)⟩ ⟨lit 1, lit (2 ^ 127)⟩ ⟨lit 0, lit 0⟩ = (.ok (), w) ∧
    getRealPart w = .ok (lit 2) ∧ getImaginaryPart w = .error (.err .Inf) ∧
    (addInPlace w ⟨lit 1, lit 2⟩).1 = .error (.err .Inf) ∧
    getRealPart (addInPlace w ⟨lit 1, lit 2⟩).2 = .ok (lit 3) ∧
    getImaginaryPart (addInPlace w ⟨lit 1, lit 2⟩).2 = .ok (lit 2) ∧
    getRealPart (swap (⟨lit 1, lit 2⟩, w)).2.1 = .ok (lit 2) ∧
    getImaginaryPart (swap (⟨lit 1, lit 2⟩, w)).2.1 = .ok (lit 2) := by
  refine ⟨_, (C91_add _ _ _).1 ?_ ?_ ?_ ?_, ?_⟩ <;> decide +kernel

end Complex
end TempDsp
end Verif
