import Mathlib.Analysis.SpecialFunctions.Trigonometric.Basic
import Verif.Model.Dsp
import Verif.Props.Utils

/-
Claims about `dsp`: complex numbers (C58) and the FFT index permutation (C59).
-/

set_option linter.unusedSectionVars false
set_option linter.unusedSimpArgs false

namespace Verif
open Scalar

namespace Dsp

/-- The number `z` that is stored is the complex number `c`. -/
def Complex.Is (z : Complex XR) (c : ℂ) : Prop := z.re = .fin c.re ∧ z.im = .fin c.im

namespace Complex
section
variable {F : Type} [Scalar F]

/-- C58: `new` succeeds exactly on finite arguments, which it ignores: the result is always zero. -/
theorem C58_new (a b : F) :
    ((∃ z, new a b = .ok z) ↔ Finite a ∧ Finite b) ∧
    ∀ z, new a b = .ok z → z.re = lit 0 ∧ z.im = lit 0 := by
  unfold new Utils.isValidValue Finite
  cases ha : isNaN a <;> cases ha' : isInf a <;> cases hb : isNaN b <;> cases hb' : isInf b <;>
    simp [bind, Except.bind, fail]

/-- C58: the setters store a finite value in their component and leave the other one; they refuse
anything else without effect. -/
theorem C58_set (a : F) (z : Complex F) :
    (Finite a → setRealPart a z = (.ok (), ⟨a, z.im⟩) ∧ setImaginaryPart a z = (.ok (), ⟨z.re, a⟩)) ∧
    (isNaN a = true → setRealPart a z = (.error (.err .Nan), z) ∧
      setImaginaryPart a z = (.error (.err .Nan), z)) ∧
    (isNaN a = false → isInf a = true → setRealPart a z = (.error (.err .Inf), z) ∧
      setImaginaryPart a z = (.error (.err .Inf), z)) := by
  unfold setRealPart setImaginaryPart Utils.isValidValue Finite
  refine ⟨fun h => ?_, fun h => ?_, fun h h' => ?_⟩
  · simp only [h.1, h.2, Bool.false_eq_true, if_false]; exact ⟨rfl, rfl⟩
  · simp only [h, if_true]; exact ⟨rfl, rfl⟩
  · simp only [h, h', Bool.false_eq_true, if_false, if_true]; exact ⟨rfl, rfl⟩

/-- C58: `swap` exchanges two numbers, whatever they hold. -/
theorem C58_swap (z w : Complex F) : swap (z, w) = (.ok (), (w, z)) := rfl

end

section
variable {z z1 z2 : Complex XR} {c c1 c2 : ℂ}

theorem set_re (a : ℝ) (z : Complex XR) : setRealPart (.fin a) z = (.ok (), ⟨.fin a, z.im⟩) :=
  ((C58_set _ z).1 (Ext.finite_fin a)).1
theorem set_im (a : ℝ) (z : Complex XR) : setImaginaryPart (.fin a) z = (.ok (), ⟨z.re, .fin a⟩) :=
  ((C58_set _ z).1 (Ext.finite_fin a)).2

/-- C58: sum, difference and product, into any receiver. -/
theorem C58_ring (s : Complex XR) (h1 : z1.Is c1) (h2 : z2.Is c2) :
    (∃ r, add z1 z2 s = (.ok (), r) ∧ r.Is (c1 + c2)) ∧
    (∃ r, sub z1 z2 s = (.ok (), r) ∧ r.Is (c1 - c2)) ∧
    (∃ r, mul z1 z2 s = (.ok (), r) ∧ r.Is (c1 * c2)) := by
  obtain ⟨r1, i1⟩ := z1
  obtain ⟨r2, i2⟩ := z2
  obtain ⟨rfl, rfl⟩ := h1
  obtain ⟨rfl, rfl⟩ := h2
  refine ⟨⟨_, rfl, ?_⟩, ⟨_, rfl, ?_⟩, ⟨_, rfl, ?_⟩⟩
  · exact ⟨rfl, rfl⟩
  · exact ⟨by simp, by simp⟩
  · exact ⟨by simp, by simp⟩

/-- C58: opposite and conjugate, in place. -/
theorem C58_neg (h : z.Is c) :
    (∃ r, neg z = (.ok (), r) ∧ r.Is (-c)) ∧
    (∃ r, conjugate z = (.ok (), r) ∧ r.Is ((starRingEnd ℂ) c)) := by
  obtain ⟨r, i⟩ := z
  obtain ⟨rfl, rfl⟩ := h
  constructor
  · refine ⟨⟨.fin (-c.re), .fin (-c.im)⟩, ?_, by exact ⟨rfl, rfl⟩⟩
    unfold neg
    rw [Op.get_bind', Ext.neg_fin, Op.bind_ok (set_re _ _), Op.get_bind', Ext.neg_fin, set_im]
  · refine ⟨⟨.fin c.re, .fin (-c.im)⟩, ?_, by exact ⟨rfl, rfl⟩⟩
    unfold conjugate
    rw [Op.get_bind', Ext.neg_fin, set_im]

theorem close_fin (x : ℝ) : Utils.allclose (.fin x : XR) (.fin 0) EPSILON = .ok (decide (|x| ≤ epsilon ℝ)) := by
  have e : (EPSILON : XR) = .fin (epsilon ℝ) := Ext.epsilon_eq
  rw [e, (Utils.C60_allclose_exact x 0 _).1, sub_zero]

/-- C58: division is division, and fails exactly when both components of the denominator are at most
the threshold in size; the receiver then stays as it was. -/
theorem C58_div (s : Complex XR) (h1 : z1.Is c1) (h2 : z2.Is c2) :
    (¬(|c2.re| ≤ epsilon ℝ ∧ |c2.im| ≤ epsilon ℝ) →
      ∃ r, div z1 z2 s = (.ok (), r) ∧ r.Is (c1 / c2)) ∧
    (|c2.re| ≤ epsilon ℝ → |c2.im| ≤ epsilon ℝ → div z1 z2 s = (.error (.err .Nan), s)) := by
  obtain ⟨r1, i1⟩ := z1
  obtain ⟨r2, i2⟩ := z2
  obtain ⟨rfl, rfl⟩ := h1
  obtain ⟨rfl, rfl⟩ := h2
  constructor
  · intro h
    have hne : c2.re * c2.re + c2.im * c2.im ≠ 0 := by
      intro h0
      apply h
      have a : c2.re = 0 := by nlinarith [mul_self_nonneg c2.re, mul_self_nonneg c2.im]
      have b : c2.im = 0 := by nlinarith [mul_self_nonneg c2.re, mul_self_nonneg c2.im]
      rw [a, b, abs_zero]
      exact ⟨(Linalg.eps_pos (K := ℝ)).le, (Linalg.eps_pos (K := ℝ)).le⟩
    refine ⟨⟨.fin (c1 / c2).re, .fin (c1 / c2).im⟩, ?_, by exact ⟨rfl, rfl⟩⟩
    have e1 : (c1 / c2).re = (c1.re * c2.re + c1.im * c2.im) / (c2.re * c2.re + c2.im * c2.im) := by
      rw [_root_.Complex.div_re, _root_.Complex.normSq_apply]; ring
    have e2 : (c1 / c2).im = (c1.im * c2.re - c1.re * c2.im) / (c2.re * c2.re + c2.im * c2.im) := by
      rw [_root_.Complex.div_im, _root_.Complex.normSq_apply]; ring
    unfold div
    simp only [Ext.lit_zero, close_fin, Op.liftOk_bind]
    by_cases h3 : |c2.re| ≤ epsilon ℝ
    · have h4 : ¬|c2.im| ≤ epsilon ℝ := fun h4 => h ⟨h3, h4⟩
      simp only [h3, h4, decide_true, decide_false, if_true, Op.liftOk_bind, Bool.false_eq_true, if_false,
        Ext.mul_fin, Ext.add_fin, Ext.sub_fin, Ext.div_fin _ hne, e1, e2]
      rfl
    · simp only [h3, decide_false, Op.liftOk_bind, Bool.false_eq_true, if_false,
        Ext.mul_fin, Ext.add_fin, Ext.sub_fin, Ext.div_fin _ hne, e1, e2]
      rfl
  · intro h3 h4
    unfold div
    simp only [Ext.lit_zero, close_fin, Op.liftOk_bind, h3, h4, decide_true, if_true]
    rfl

/-- C58: `calculate_module` is the modulus, cut to 0 when it is at most the threshold. -/
theorem C58_module (h : z.Is c) :
    calculateModule z = .ok (.fin (if ‖c‖ ≤ epsilon ℝ then 0 else ‖c‖)) := by
  obtain ⟨r, i⟩ := z
  obtain ⟨rfl, rfl⟩ := h
  have e : Scalar.sqrt ((.fin c.re : XR) *ᶠ .fin c.re +ᶠ .fin c.im *ᶠ .fin c.im) = .fin ‖c‖ := by
    rw [Ext.mul_fin, Ext.mul_fin, Ext.add_fin,
      Ext.sqrt_fin (by nlinarith [mul_self_nonneg c.re, mul_self_nonneg c.im]),
      _root_.Complex.norm_def, _root_.Complex.normSq_apply]
    rfl
  unfold calculateModule
  simp only [e, close_fin, Res.ok_bind, abs_norm, Ext.lit_zero]
  by_cases h : ‖c‖ ≤ epsilon ℝ
  · simp only [h, decide_true, if_true]
  · simp only [h, decide_false, Bool.false_eq_true, if_false]

/-- C58: `expo` is the exponential, cut to 0 when its modulus is at most the threshold. -/
theorem C58_expo (h : z.Is c) :
    ∃ r, expo z = (.ok (), r) ∧
      r.Is (if ‖_root_.Complex.exp c‖ ≤ epsilon ℝ then 0 else _root_.Complex.exp c) := by
  obtain ⟨r, i⟩ := z
  obtain ⟨rfl, rfl⟩ := h
  have e1 : Scalar.exp (.fin c.re : XR) = .fin (Real.exp c.re) := rfl
  have e2 : Scalar.cos (.fin c.im : XR) = .fin (Real.cos c.im) := rfl
  have e3 : Scalar.sin (.fin c.im : XR) = .fin (Real.sin c.im) := rfl
  unfold expo
  simp only [Op.get_bind', e1, e2, e3, close_fin, Op.liftOk_bind, Real.abs_exp,
    _root_.Complex.norm_exp, Ext.mul_fin, Ext.lit_zero]
  by_cases h : Real.exp c.re ≤ epsilon ℝ
  · simp only [h, decide_true, if_true]
    exact ⟨⟨.fin 0, .fin 0⟩, rfl, by exact ⟨rfl, rfl⟩⟩
  · simp only [h, decide_false, Bool.false_eq_true, if_false]
    refine ⟨_, rfl, ?_, ?_⟩
    · rw [_root_.Complex.exp_re]
    · rw [_root_.Complex.exp_im]

/-- C58: `convert_from_polar` stores `r·exp(iθ)`. -/
theorem C58_polar (r θ : ℝ) (z : Complex XR) :
    ∃ w, convertFromPolar (.fin r) (.fin θ) z = (.ok (), w) ∧
      w.Is (r * _root_.Complex.exp (θ * _root_.Complex.I)) := by
  have e2 : Scalar.cos (.fin θ : XR) = .fin (Real.cos θ) := rfl
  have e3 : Scalar.sin (.fin θ : XR) = .fin (Real.sin θ) := rfl
  refine ⟨⟨.fin (r * Real.cos θ), .fin (r * Real.sin θ)⟩, ?_, ?_, ?_⟩
  · unfold convertFromPolar
    have k : ∀ x : ℝ, Utils.isValidValue (.fin x : XR) = .ok () := fun _ => rfl
    simp only [k, Op.liftOk_bind', e2, e3, Ext.mul_fin]
    rw [Op.bind_ok (set_re _ _), set_im]
  · simp [_root_.Complex.exp_ofReal_mul_I_re]
  · simp [_root_.Complex.exp_ofReal_mul_I_im]

/-- C58: in every arithmetic, `convert_from_polar` refuses a modulus or an angle that is not finite and
changes nothing then. -/
theorem C58_polar_refuses {F : Type} [Scalar F] {r θ : F} (h : ¬(Finite r ∧ Finite θ)) (z : Complex F) :
    ∃ e, convertFromPolar r θ z = (.error (.err e), z) := by
  have k : ∀ x : F, Finite x → Utils.isValidValue x = .ok () := by
    intro x hx
    simp [Utils.isValidValue, hx.1, hx.2]
  have k' : ∀ x : F, ¬Finite x → ∃ e, Utils.isValidValue x = .error (.err e) := by
    intro x hx
    unfold Utils.isValidValue
    cases h1 : isNaN x
    · cases h2 : isInf x
      · exact absurd ⟨h1, h2⟩ hx
      · exact ⟨_, rfl⟩
    · exact ⟨_, rfl⟩
  unfold convertFromPolar
  by_cases hr : Finite r
  · obtain ⟨e, he⟩ := k' θ fun hθ => h ⟨hr, hθ⟩
    refine ⟨e, ?_⟩
    rw [k r hr, he]
    rfl
  · obtain ⟨e, he⟩ := k' r hr
    refine ⟨e, ?_⟩
    rw [he]
    rfl

/-- An infinite modulus is refused. -/
example : ∃ e, convertFromPolar (Ext.pinf : XR) (.fin 1) ⟨.fin 2, .fin 3⟩ =
    (.error (.err e), ⟨.fin 2, .fin 3⟩) :=
  C58_polar_refuses (fun h => by simp [Finite] at h) _

/-- The product of `1 + 2i` and `3 - i`, and their quotient, are what they should be. -/
example : ∃ z1 z2 : Complex XR, z1.Is ⟨1, 2⟩ ∧ z2.Is ⟨3, -1⟩ ∧
    (∃ r, mul z1 z2 z1 = (.ok (), r) ∧ r.Is ⟨5, 5⟩) ∧
    (∃ r, div z1 z2 z1 = (.ok (), r) ∧ r.Is ⟨1/10, 7/10⟩) := by
  have h1 : Is ⟨.fin 1, .fin 2⟩ ⟨1, 2⟩ := ⟨rfl, rfl⟩
  have h2 : Is ⟨.fin 3, .fin (-1)⟩ ⟨3, -1⟩ := ⟨rfl, rfl⟩
  refine ⟨_, _, h1, h2, ?_, ?_⟩
  · obtain ⟨r, e, h⟩ := (C58_ring ⟨.fin 1, .fin 2⟩ h1 h2).2.2
    refine ⟨r, e, ?_⟩
    convert h using 1
    apply _root_.Complex.ext <;> norm_num
  · obtain ⟨r, e, h⟩ := (C58_div ⟨.fin 1, .fin 2⟩ h1 h2).1 (by
      intro h
      have := h.1
      norm_num [epsilon] at this)
    refine ⟨r, e, ?_⟩
    convert h using 1
    apply _root_.Complex.ext <;> norm_num [_root_.Complex.div_re, _root_.Complex.div_im, _root_.Complex.normSq_apply]

end

/-- `new 3 4` is zero; a denominator of modulus 1.4e-4 can be refused. -/
example : (new (.fin 3) (.fin 4) : Res UtilsError (Complex XQ)).map (fun z => [z.re, z.im]) =
      .ok [.fin 0, .fin 0] ∧
    (div (⟨.fin 1, .fin 0⟩ : Complex XQ) ⟨.fin (1/10000), .fin (1/10000)⟩ ⟨.fin 7, .fin 7⟩).1 =
      .error (.err .Nan) ∧
    (calculateModule (⟨.fin 3, .fin 4⟩ : Complex XQ)) = .ok (.fin 5) := by
  decide +kernel

end Complex

/-! ### C59 -/

/-- The decidable form of C59, for one pair of arguments. -/
def bitrevSpec (n b : UInt8) : Bool :=
  match bitrev n b with
  | .ok r => b.toNat ≤ 8 && r.toNat < 2 ^ b.toNat &&
      (List.range b.toNat).all fun i => r.toNat.testBit i == n.toNat.testBit (b.toNat - 1 - i)
  | .error e => 8 < b.toNat && e == .err .BitReverseError

theorem bitrev_all : ∀ b : Fin 9, ∀ n : Fin 256, bitrevSpec (UInt8.ofFin n) (UInt8.ofNat b) = true := by
  decide +kernel

theorem bitrev_big {n b : UInt8} (h : 8 < b) : bitrev n b = .error (.err .BitReverseError) := by
  unfold bitrev; rw [if_pos h]

/-- C59: `bitrev` fails when asked for more than 8 bits; otherwise bit `i` of its result is bit
`b - 1 - i` of `n`, for the low `b` bits, and the bits above are zero. -/
theorem C59_bitrev (n b : UInt8) :
    (8 < b.toNat → bitrev n b = .error (.err .BitReverseError)) ∧
    (b.toNat ≤ 8 → ∃ r, bitrev n b = .ok r ∧ r.toNat < 2 ^ b.toNat ∧
      ∀ i, i < b.toNat → r.toNat.testBit i = n.toNat.testBit (b.toNat - 1 - i)) := by
  refine ⟨fun h => bitrev_big (by rw [UInt8.lt_iff_toNat_lt]; exact h), fun h => ?_⟩
  have h1 := bitrev_all ⟨b.toNat, by omega⟩ n.toFin
  have e1 : UInt8.ofFin n.toFin = n := rfl
  have e2 : UInt8.ofNat b.toNat = b := UInt8.ofNat_toNat
  simp only [e1, e2] at h1
  unfold bitrevSpec at h1
  cases hr : bitrev n b with
  | ok r =>
    rw [hr] at h1
    simp only [Bool.and_eq_true, decide_eq_true_eq, List.all_eq_true, List.mem_range, beq_iff_eq] at h1
    exact ⟨r, rfl, h1.1.2, h1.2⟩
  | error e =>
    rw [hr] at h1
    simp only [Bool.and_eq_true, decide_eq_true_eq] at h1
    omega

/-- C59: reversing twice gives back the low `b` bits. -/
theorem C59_involution {n b r : UInt8} (h : bitrev n b = .ok r) :
    ∃ m, bitrev r b = .ok m ∧ m.toNat = n.toNat % 2 ^ b.toNat := by
  obtain ⟨h1, h2⟩ := C59_bitrev n b
  have hb : b.toNat ≤ 8 := by
    by_contra h'
    rw [h1 (by omega)] at h; cases h
  obtain ⟨r', e, hlt, hbit⟩ := h2 hb
  rw [h] at e; cases e
  obtain ⟨m, e', hlt', hbit'⟩ := (C59_bitrev r b).2 hb
  refine ⟨m, e', Nat.eq_of_testBit_eq fun i => ?_⟩
  rw [Nat.testBit_mod_two_pow]
  by_cases hi : i < b.toNat
  · rw [hbit' i hi, hbit _ (by omega)]
    simp only [hi, decide_true, Bool.true_and]
    congr 1; omega
  · rw [Nat.testBit_lt_two_pow (lt_of_lt_of_le hlt' (Nat.pow_le_pow_right (by omega) (by omega)))]
    simp [hi]

/-- C59: on the indices below `2 ^ b` it is a permutation: different indices go to different ones. -/
theorem C59_injective {n m b r : UInt8} (hn : n.toNat < 2 ^ b.toNat) (hm : m.toNat < 2 ^ b.toNat)
    (h1 : bitrev n b = .ok r) (h2 : bitrev m b = .ok r) : n = m := by
  obtain ⟨k, e, hk⟩ := C59_involution h1
  obtain ⟨k', e', hk'⟩ := C59_involution h2
  rw [e] at e'; cases e'
  rw [Nat.mod_eq_of_lt hn] at hk
  rw [Nat.mod_eq_of_lt hm] at hk'
  exact UInt8.toNat_inj.mp (hk.symm.trans hk')

example : bitrev 0b0001 4 = .ok 0b1000 ∧ bitrev 0b0011 4 = .ok 0b1100 ∧ bitrev 0b11010011 8 = .ok 0b11001011 ∧
    bitrev 0xf1 4 = .ok 0b1000 ∧ bitrev 77 0 = .ok 0 ∧ bitrev 1 9 = .error (.err .BitReverseError) := by
  decide +kernel

end Dsp
end Verif
