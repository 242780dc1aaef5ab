import Verif.Props.RoundedAmStep
import Verif.Props.RoundedTrack
import Verif.Props.Euler
import Mathlib.Analysis.Real.Pi.Bounds

/-
Euler angles in binary32 (C104).
-/

set_option linter.unusedSectionVars false
set_option linter.unusedSimpArgs false

namespace Verif
open Scalar Finset

/-- What is assumed of `asinf` and `atan2f`: finite results within `2⁻²¹` of an exact one, twice the spacing of the
numbers below 4.  For `atan2f` the exact angle may be any of those that differ by full turns, so nothing is said
about the sign of a half turn.  Outside [-1, 1] `asinf` is not a number. -/
class Arcs (F : Type) [Scalar F] [Rounded F] : Prop where
  asin_near : ∀ {x : F}, Finite x → |⟪x⟫| ≤ 1 → Finite (Scalar.asin x) ∧ |⟪Scalar.asin x⟫ - Real.arcsin ⟪x⟫| ≤ 1 / 2 ^ 21
  asin_nan : ∀ {x : F}, Finite x → 1 < |⟪x⟫| → Scalar.isNaN (Scalar.asin x) = true
  atan2_near : ∀ {y x : F}, Finite y → Finite x → Finite (Scalar.atan2 y x) ∧ ∃ t, Real.cos t = Real.cos (Complex.arg ⟨⟪x⟫, ⟪y⟫⟩) ∧
    Real.sin t = Real.sin (Complex.arg ⟨⟪x⟫, ⟪y⟫⟩) ∧ |⟪Scalar.atan2 y x⟫ - t| ≤ 1 / 2 ^ 21

/-! ### Perturbed angles -/

/-- The angle of a complex number near 1. -/
theorem arg_near_one {w : ℂ} {e : ℝ} (hw : ‖w - 1‖ ≤ e) (he : e ≤ 1 / 100) : |Complex.arg w| ≤ 8 / 5 * e := by
  have h1 : |w.re - 1| ≤ e := by
    have := Complex.abs_re_le_norm (w - 1)
    simp at this
    exact this.trans hw
  have h2 : |w.im| ≤ e := by
    have := Complex.abs_im_le_norm (w - 1)
    simp at this
    exact this.trans hw
  have h3 := (abs_le.mp h1).1
  have hre : 99 / 100 ≤ w.re := by linarith
  have hn : 99 / 100 ≤ ‖w‖ := hre.trans (Complex.re_le_norm w)
  have h4 : |Complex.arg w| ≤ Real.pi / 2 := Complex.abs_arg_le_pi_div_two_iff.mpr (by linarith)
  have h5 := Real.mul_abs_le_abs_sin h4
  rw [Complex.sin_arg, abs_div, abs_norm] at h5
  have h6 : |w.im| / ‖w‖ ≤ 100 / 99 * e := by
    rw [div_le_iff₀ (by linarith)]
    have := abs_nonneg w.im
    nlinarith
  have hpi := Real.pi_lt_d2
  have hpos := Real.pi_pos
  have h7 : |Complex.arg w| ≤ Real.pi / 2 * (100 / 99 * e) := by
    have : 2 / Real.pi * |Complex.arg w| ≤ 100 / 99 * e := h5.trans h6
    calc |Complex.arg w| = Real.pi / 2 * (2 / Real.pi * |Complex.arg w|) := by field_simp
      _ ≤ _ := by gcongr
  have he0 : 0 ≤ e := (norm_nonneg _).trans hw
  nlinarith

/-- The angle of a point of the plane, when the point is known up to an error. -/
theorem arg_perturb {x y X Y c d : ℝ} (hc : 0 < c) (h : x ^ 2 + y ^ 2 = c ^ 2) (hx : |X - x| ≤ d) (hy : |Y - y| ≤ d)
    (hd : 150 * d ≤ c) :
    ∃ t, c * Real.cos t = x ∧ c * Real.sin t = y ∧ |Complex.arg ⟨X, Y⟩ - t| ≤ 12 / 5 * d / c := by
  have hn : ‖(⟨x, y⟩ : ℂ)‖ = c := by
    rw [Complex.norm_eq_sqrt_sq_add_sq, h, Real.sqrt_sq hc.le]
  set z : ℂ := ⟨x, y⟩ with hz
  set Z : ℂ := ⟨X, Y⟩ with hZ
  have hz0 : z ≠ 0 := by
    intro h0; rw [h0, norm_zero] at hn; linarith
  have hd0 : 0 ≤ d := (abs_nonneg _).trans hx
  have hdist : ‖Z - z‖ ≤ 3 / 2 * d := by
    rw [Complex.norm_eq_sqrt_sq_add_sq]
    refine Real.sqrt_le_iff.mpr ⟨by positivity, ?_⟩
    have a1 := sq_le_sq' (abs_le.mp hx).1 (abs_le.mp hx).2
    have a2 := sq_le_sq' (abs_le.mp hy).1 (abs_le.mp hy).2
    simp only [hz, hZ, Complex.sub_re, Complex.sub_im]
    nlinarith
  have hw : ‖Z / z - 1‖ ≤ 3 / 2 * d / c := by
    rw [div_sub_one hz0, norm_div, hn]
    gcongr
  have hw2 : 3 / 2 * d / c ≤ 1 / 100 := by rw [div_le_iff₀ hc]; linarith
  have ha := arg_near_one hw hw2
  have hZ0 : Z ≠ 0 := by
    rintro h0
    rw [h0, zero_sub, norm_neg, hn] at hdist
    linarith
  have hq0 : Z / z ≠ 0 := div_ne_zero hZ0 hz0
  refine ⟨Complex.arg Z - Complex.arg (Z / z), ?_⟩
  have key : z = c * Complex.exp ((Complex.arg Z - Complex.arg (Z / z) : ℝ) * Complex.I) := by
    have e1 := Complex.norm_mul_exp_arg_mul_I Z
    have e2 := Complex.norm_mul_exp_arg_mul_I (Z / z)
    push_cast
    rw [sub_mul, Complex.exp_sub]
    have n1 : (‖Z‖ : ℂ) ≠ 0 := by exact_mod_cast (norm_pos_iff.mpr hZ0).ne'
    have n2 : (‖Z / z‖ : ℂ) ≠ 0 := by exact_mod_cast (norm_pos_iff.mpr hq0).ne'
    have n3 : (c : ℂ) ≠ 0 := by exact_mod_cast hc.ne'
    have n4 : (‖Z / z‖ : ℂ) = ‖Z‖ / c := by rw [norm_div, hn]; push_cast; rfl
    have x1 : Complex.exp (Complex.arg Z * Complex.I) = Z / ‖Z‖ := by rw [eq_div_iff n1, mul_comm]; exact e1
    have x2 : Complex.exp (Complex.arg (Z / z) * Complex.I) = (Z / z) / ‖Z / z‖ := by
      rw [eq_div_iff n2, mul_comm]; exact e2
    rw [x1, x2, n4]
    field_simp
  refine ⟨?_, ?_, ?_⟩
  · have := congrArg Complex.re key
    rw [Complex.re_ofReal_mul, Complex.exp_ofReal_mul_I_re] at this
    exact this.symm
  · have := congrArg Complex.im key
    rw [Complex.im_ofReal_mul, Complex.exp_ofReal_mul_I_im] at this
    exact this.symm
  · rw [sub_sub_cancel]
    refine ha.trans (le_of_eq ?_)
    ring

/-- The arc sine, when the sine is known up to an error. -/
theorem arcsin_perturb {s S d : ℝ} (hs : |s| < 1) (hS : |S| ≤ 1) (h : |S - s| ≤ d) :
    |Real.arcsin S - Real.arcsin s| ≤ Real.pi * d / √(1 - s ^ 2) := by
  have hs2 : 0 < 1 - s ^ 2 := by
    have := (sq_lt_one_iff_abs_lt_one s).mpr hs
    linarith
  have hc : 0 < √(1 - s ^ 2) := Real.sqrt_pos.mpr hs2
  obtain ⟨s1, s2⟩ := abs_le.mp hs.le
  obtain ⟨S1, S2⟩ := abs_le.mp hS
  have e1 := Real.sin_arcsin s1 s2
  have e2 := Real.sin_arcsin S1 S2
  have c1 := Real.cos_arcsin s
  have c2 : 0 ≤ Real.cos (Real.arcsin S) := Real.cos_arcsin_nonneg S
  have b1 := Real.arcsin_le_pi_div_two s
  have b2 := Real.neg_pi_div_two_le_arcsin s
  have b3 := Real.arcsin_le_pi_div_two S
  have b4 := Real.neg_pi_div_two_le_arcsin S
  set a := Real.arcsin s with ha
  set b := Real.arcsin S with hb
  have f1 : S - s = 2 * Real.sin ((b - a) / 2) * Real.cos ((b + a) / 2) := by
    rw [← e1, ← e2]
    exact Real.sin_sub_sin b a
  have f2 : Real.cos b + Real.cos a = 2 * Real.cos ((b + a) / 2) * Real.cos ((b - a) / 2) := Real.cos_add_cos b a
  have f3 : 0 ≤ Real.cos ((b + a) / 2) := Real.cos_nonneg_of_neg_pi_div_two_le_of_le (by linarith) (by linarith)
  have f4 : √(1 - s ^ 2) ≤ 2 * Real.cos ((b + a) / 2) := by
    rw [← c1]
    have := Real.cos_le_one ((b - a) / 2)
    nlinarith
  have f5 : |Real.sin ((b - a) / 2)| * √(1 - s ^ 2) ≤ d := by
    refine le_trans ?_ h
    rw [f1, abs_mul, abs_mul, abs_two, abs_of_nonneg f3]
    have := abs_nonneg (Real.sin ((b - a) / 2))
    nlinarith
  have f6 : |(b - a) / 2| ≤ Real.pi / 2 := by rw [abs_le]; constructor <;> linarith
  have f7 := Real.mul_abs_le_abs_sin f6
  have hpi := Real.pi_pos
  rw [le_div_iff₀ hc]
  have f8 : |b - a| = Real.pi * (2 / Real.pi * |(b - a) / 2|) := by
    rw [abs_div, abs_two]
    field_simp
  rw [f8, mul_assoc]
  refine mul_le_mul_of_nonneg_left (le_trans ?_ f5) hpi.le
  exact mul_le_mul_of_nonneg_right f7 hc.le

/-- The product of the three rotations, from what is known of the angles. -/
theorem euler_matrix {w x y z c s phi theta psi : ℝ} (hs : w * w + x * x + y * y + z * z = 1) (hsd : s = 2 * (w * y - z * x))
    (hc : 0 < c) (hc2 : c ^ 2 = 1 - s ^ 2) (t1 : Real.cos theta = c) (t2 : Real.sin theta = s)
    (p1 : c * Real.cos phi = 1 - 2 * (x * x + y * y)) (p2 : c * Real.sin phi = 2 * (w * x + y * z))
    (p3 : c * Real.cos psi = 1 - 2 * (y * y + z * z)) (p4 : c * Real.sin psi = 2 * (w * z + x * y)) :
    toMatrix 3 3 (dcmOf (mkQ w x y z)) = rotZ psi * rotY theta * rotX phi := by
  set cp := Real.cos phi
  set sp := Real.sin phi
  set cy := Real.cos psi
  set sy := Real.sin psi
  have hd : toMatrix 3 3 (dcmOf (mkQ w x y z)) = !![w * w + x * x - y * y - z * z, 2 * (x * y - w * z),
      2 * (x * z + w * y); 2 * (x * y + w * z), 1 - 2 * (x * x + z * z), 2 * (y * z - w * x);
      2 * (x * z - w * y), 2 * (w * x + y * z), 1 - 2 * (x * x + y * y)] := by
    ext i j
    fin_cases i <;> fin_cases j <;> simp [toMatrix, dcmOf, tbl]
  have hp : rotZ psi * rotY theta * rotX phi =
      !![cy * c, cy * s * sp - sy * cp, cy * s * cp + sy * sp;
        sy * c, sy * s * sp + cy * cp, sy * s * cp - cy * sp;
        -s, c * sp, c * cp] := by
    rw [rotX, rotY, rotZ, t1, t2]
    ext i j
    fin_cases i <;> fin_cases j <;>
      simp [Matrix.mul_apply, Fin.sum_univ_three] <;> first | rfl | ring1 | exact .inl rfl
  have hc0 : c ^ 2 ≠ 0 := by positivity
  have k : ∀ u v : ℝ, c ^ 2 * u = c ^ 2 * v → u = v := fun u v h => mul_left_cancel₀ hc0 h
  have q1 : c * cp = w * w - x * x - y * y + z * z := by linarith
  have q3 : c * cy = w * w + x * x - y * y - z * z := by linarith
  have hN : c ^ 2 = (w * w + x * x + y * y + z * z) ^ 2 - s ^ 2 := by rw [hs, hc2]; norm_num
  have d11 : 1 - 2 * (x * x + z * z) = w * w - x * x + y * y - z * z := by linarith
  have r01 : 2 * (x * y - w * z) = cy * s * sp - sy * cp := by
    apply k
    have h1 : c ^ 2 * (cy * s * sp - sy * cp) = (c * cy) * s * (c * sp) - 1 * ((c * sy) * (c * cp)) := by
      ring
    rw [h1, q1, q3, p2, p4, hN, ← hs, hsd]
    ring
  have r02 : 2 * (x * z + w * y) = cy * s * cp + sy * sp := by
    apply k
    have h1 : c ^ 2 * (cy * s * cp + sy * sp) = (c * cy) * s * (c * cp) + 1 * ((c * sy) * (c * sp)) := by
      ring
    rw [h1, q1, q3, p2, p4, hN, ← hs, hsd]
    ring
  have r11 : 1 - 2 * (x * x + z * z) = sy * s * sp + cy * cp := by
    rw [d11]
    apply k
    have h1 : c ^ 2 * (sy * s * sp + cy * cp) = (c * sy) * s * (c * sp) + 1 * ((c * cy) * (c * cp)) := by
      ring
    rw [h1, q1, q3, p2, p4, hN, ← hs, hsd]
    ring
  have r12 : 2 * (y * z - w * x) = sy * s * cp - cy * sp := by
    apply k
    have h1 : c ^ 2 * (sy * s * cp - cy * sp) = (c * sy) * s * (c * cp) - 1 * ((c * cy) * (c * sp)) := by
      ring
    rw [h1, q1, q3, p2, p4, hN, ← hs, hsd]
    ring
  have r00 : w * w + x * x - y * y - z * z = cy * c := by linarith
  have r10 : 2 * (x * y + w * z) = sy * c := by linarith
  have r20 : 2 * (x * z - w * y) = -s := by rw [hsd]; ring
  have r21 : 2 * (w * x + y * z) = c * sp := by linarith
  have r22 : 1 - 2 * (x * x + y * y) = c * cp := by linarith
  rw [hd, hp]
  ext i j
  fin_cases i <;> fin_cases j
  · exact r00
  · exact r01
  · exact r02
  · exact r10
  · exact r11
  · exact r12
  · exact r20
  · exact r21
  · exact r22

variable {F : Type} [Scalar F] [R : Rounded F]

/-! ### The arguments of the functions in binary32 -/

theorem prod_acc {a b : F} (ha : Finite a) (hb : Finite b) (h1 : |⟪a⟫| ≤ 1001 / 1000) (h2 : |⟪b⟫| ≤ 1001 / 1000) :
    Apx (a *ᶠ b) (⟪a⟫ * ⟪b⟫) (6 / 10 ^ 8) := by
  have hη := rη_le
  norm_num at hη
  exact ((Apx.exact ha).mul (Apx.exact hb) h1 h2 (by norm_num)).mono (by norm_num; linarith)

theorem twice_acc' {t : F} {T : ℝ} (ht : Apx t T (19 / 10 ^ 8)) (hT : |T| ≤ 11 / 10) : Apx (lit 2 *ᶠ t) (2 * T) (6 / 10 ^ 7) := by
  have hη := rη_le
  norm_num at hη
  exact (Apx.two.mul ht (A := 2) (by norm_num [abs_of_pos]) hT (by norm_num)).mono (by norm_num; linarith)

section
variable {a b c d : F} (ha : Finite a) (hb : Finite b) (hc : Finite c) (hd : Finite d) (h1 : |⟪a⟫| ≤ 1001 / 1000)
  (h2 : |⟪b⟫| ≤ 1001 / 1000) (h3 : |⟪c⟫| ≤ 1001 / 1000) (h4 : |⟪d⟫| ≤ 1001 / 1000)

include ha hb hc hd h1 h2 h3 h4 in
/-- Twice a sum of two products. -/
theorem two_prod_add (h : |⟪a⟫ * ⟪b⟫ + ⟪c⟫ * ⟪d⟫| ≤ 11 / 10) :
    Apx (lit 2 *ᶠ (a *ᶠ b +ᶠ c *ᶠ d)) (2 * (⟪a⟫ * ⟪b⟫ + ⟪c⟫ * ⟪d⟫)) (6 / 10 ^ 7) := by
  have hη := rη_le
  norm_num at hη
  exact twice_acc' (((prod_acc ha hb h1 h2).add (prod_acc hc hd h3 h4) h (by norm_num)).mono (by norm_num; linarith)) h

include ha hb hc hd h1 h2 h3 h4 in
/-- Twice a difference of two products. -/
theorem two_prod_sub (h : |⟪a⟫ * ⟪b⟫ - ⟪c⟫ * ⟪d⟫| ≤ 11 / 10) :
    Apx (lit 2 *ᶠ (a *ᶠ b -ᶠ c *ᶠ d)) (2 * (⟪a⟫ * ⟪b⟫ - ⟪c⟫ * ⟪d⟫)) (6 / 10 ^ 7) := by
  have hη := rη_le
  norm_num at hη
  exact twice_acc' (((prod_acc ha hb h1 h2).sub (prod_acc hc hd h3 h4) h (by norm_num)).mono (by norm_num; linarith)) h
end

/-- One minus twice a sum of two squares. -/
theorem one_sub_squares {a b : F} (ha : Finite a) (hb : Finite b) (h1 : |⟪a⟫| ≤ 1001 / 1000) (h2 : |⟪b⟫| ≤ 1001 / 1000)
    (h : ⟪a⟫ * ⟪a⟫ + ⟪b⟫ * ⟪b⟫ ≤ 101 / 100) :
    Apx (lit 1 -ᶠ lit 2 *ᶠ (a *ᶠ a +ᶠ b *ᶠ b)) (1 - 2 * (⟪a⟫ * ⟪a⟫ + ⟪b⟫ * ⟪b⟫)) (7 / 10 ^ 7) := by
  have hη := rη_le
  norm_num at hη
  have p1 := mul_self_nonneg ⟪a⟫
  have p2 := mul_self_nonneg ⟪b⟫
  have := two_prod_add ha ha hb hb h1 h1 h2 h2 (by rw [abs_le]; constructor <;> linarith)
  exact (Apx.one.sub this (B := 105 / 100) (by rw [abs_le]; constructor <;> linarith) (by norm_num)).mono (by norm_num; linarith)

/-- From a quaternion to the one of norm one. -/
theorem scaled_near {V U n e : ℝ} (hV : V = n * U) (hU : |U| ≤ e) (hn : |n - 1| ≤ 21 / 10 ^ 7) : |V - U| ≤ 21 / 10 ^ 7 * e := by
  rw [hV, show n * U - U = (n - 1) * U by ring, abs_mul]
  exact mul_le_mul hn hU (abs_nonneg _) (by norm_num)

theorem scaled_one_sub {V U n : ℝ} (hV : V = 1 - n * U) (hU : |U| ≤ 2) (hn : |n - 1| ≤ 21 / 10 ^ 7) : |V - (1 - U)| ≤ 42 / 10 ^ 7 := by
  rw [hV, show 1 - n * U - (1 - U) = -((n - 1) * U) by ring, abs_neg, abs_mul]
  calc |n - 1| * |U| ≤ 21 / 10 ^ 7 * 2 := mul_le_mul hn hU (abs_nonneg _) (by norm_num)
    _ = _ := by norm_num

/-- One of the two angles from `atan2f`. -/
theorem atan2_acc [A : Arcs F] {y x : F} {Y X c : ℝ} (hy : Apx y Y (49 / 10 ^ 7)) (hx : Apx x X (49 / 10 ^ 7)) (hc : 3 / 1000 ≤ c)
    (hc1 : c ≤ 1) (h : X ^ 2 + Y ^ 2 = c ^ 2) :
    Finite (Scalar.atan2 y x) ∧ ∃ t, c * Real.cos t = X ∧ c * Real.sin t = Y ∧ |⟪Scalar.atan2 y x⟫ - t| ≤ 15 / 10 ^ 6 / c := by
  obtain ⟨hfin, t, h1, h2, h3⟩ := A.atan2_near hy.1 hx.1
  have hc0 : 0 < c := by linarith
  obtain ⟨t', k1, k2, k3⟩ := arg_perturb hc0 h hx.2 hy.2 (by norm_num; linarith)
  refine ⟨hfin, t' + (t - Complex.arg ⟨⟪x⟫, ⟪y⟫⟩), ?_, ?_, ?_⟩
  · have e1 : Real.cos (t - Complex.arg ⟨⟪x⟫, ⟪y⟫⟩) = 1 := by rw [Real.cos_sub, h1, h2, ← sq, ← sq]; exact Real.cos_sq_add_sin_sq _
    have e2 : Real.sin (t - Complex.arg ⟨⟪x⟫, ⟪y⟫⟩) = 0 := by rw [Real.sin_sub, h1, h2]; ring
    rw [Real.cos_add, e1, e2, ← k1]; ring
  · have e1 : Real.cos (t - Complex.arg ⟨⟪x⟫, ⟪y⟫⟩) = 1 := by rw [Real.cos_sub, h1, h2, ← sq, ← sq]; exact Real.cos_sq_add_sin_sq _
    have e2 : Real.sin (t - Complex.arg ⟨⟪x⟫, ⟪y⟫⟩) = 0 := by rw [Real.sin_sub, h1, h2]; ring
    rw [Real.sin_add, e1, e2, ← k2]; ring
  · have : ⟪Scalar.atan2 y x⟫ - (t' + (t - Complex.arg ⟨⟪x⟫, ⟪y⟫⟩)) = (⟪Scalar.atan2 y x⟫ - t) + (Complex.arg ⟨⟪x⟫, ⟪y⟫⟩ - t') := by ring
    rw [this]
    refine (abs_add_le _ _).trans ((add_le_add h3 k3).trans ?_)
    rw [← sub_nonneg]
    have : 15 / 10 ^ 6 / c - (1 / 2 ^ 21 + 12 / 5 * (49 / 10 ^ 7) / c) = (15 / 10 ^ 6 - 12 / 5 * (49 / 10 ^ 7) - c / 2 ^ 21) / c := by
      field_simp
      ring
    rw [this]
    refine div_nonneg ?_ hc0.le
    norm_num
    linarith

theorem asin_acc [A : Arcs F] {y : F} {s c : ℝ} (hy : Apx y s (27 / 10 ^ 7)) (hs : |s| ≤ 1 - 28 / 10 ^ 7) (hc : c = √(1 - s ^ 2)) :
    Finite (Scalar.asin y) ∧ |⟪Scalar.asin y⟫ - Real.arcsin s| ≤ 15 / 10 ^ 6 / c := by
  have hy1 : |⟪y⟫| ≤ 1 := (hy.le hs).trans (by norm_num)
  obtain ⟨h1, h2⟩ := A.asin_near hy.1 hy1
  have hs1 : |s| < 1 := by norm_num at hs; linarith
  have hs2 : 0 < 1 - s ^ 2 := by
    have := (sq_lt_one_iff_abs_lt_one s).mpr hs1
    linarith
  have hc0 : 0 < c := by rw [hc]; exact Real.sqrt_pos.mpr hs2
  have hc1 : c ≤ 1 := by rw [hc]; exact Real.sqrt_le_one.mpr (by nlinarith)
  have k := arcsin_perturb hs1 hy1 hy.2
  rw [← hc] at k
  refine ⟨h1, (dist_trans h2 k).trans ?_⟩
  have hpi := Real.pi_lt_d2
  rw [← sub_nonneg]
  have : 15 / 10 ^ 6 / c - (1 / 2 ^ 21 + Real.pi * (27 / 10 ^ 7) / c) = (15 / 10 ^ 6 - Real.pi * (27 / 10 ^ 7) - c / 2 ^ 21) / c := by
    field_simp
    ring
  rw [this]
  refine div_nonneg ?_ hc0.le
  norm_num at hpi ⊢
  linarith

set_option maxHeartbeats 1000000 in
/-- The three angles, in terms of the quaternion of norm one. -/
theorem euler_core [A : Arcs F] {f0 f1 f2 f3 : F} (h0 : Finite f0) (h1 : Finite f1) (h2 : Finite f2) (h3 : Finite f3)
    {n w x y z : ℝ} (e0 : ⟪f0⟫ = n * w) (e1 : ⟪f1⟫ = n * x) (e2 : ⟪f2⟫ = n * y) (e3 : ⟪f3⟫ = n * z)
    (hs : w * w + x * x + y * y + z * z = 1) (hn : |n ^ 2 - 1| ≤ 21 / 10 ^ 7) (n0 : 0 ≤ n) (n1 : n ≤ 1001 / 1000)
    (hg : |2 * (⟪f0⟫ * ⟪f2⟫ - ⟪f3⟫ * ⟪f1⟫)| ≤ 99999 / 100000) :
    ∃ (phi theta psi : ℝ), toMatrix 3 3 (dcmOf (mkQ w x y z)) = rotZ psi * rotY theta * rotX phi ∧ 3 / 1000 ≤ Real.cos theta ∧
      |theta| ≤ Real.pi / 2 ∧
      (Finite (Scalar.atan2 (lit 2 *ᶠ (f0 *ᶠ f1 +ᶠ f2 *ᶠ f3)) (lit 1 -ᶠ lit 2 *ᶠ (f1 *ᶠ f1 +ᶠ f2 *ᶠ f2))) ∧
        |⟪Scalar.atan2 (lit 2 *ᶠ (f0 *ᶠ f1 +ᶠ f2 *ᶠ f3)) (lit 1 -ᶠ lit 2 *ᶠ (f1 *ᶠ f1 +ᶠ f2 *ᶠ f2))⟫ - phi| ≤ 15 / 10 ^ 6 / Real.cos theta) ∧
      (Finite (Scalar.asin (lit 2 *ᶠ (f0 *ᶠ f2 -ᶠ f3 *ᶠ f1))) ∧
        |⟪Scalar.asin (lit 2 *ᶠ (f0 *ᶠ f2 -ᶠ f3 *ᶠ f1))⟫ - theta| ≤ 15 / 10 ^ 6 / Real.cos theta) ∧
      (Finite (Scalar.atan2 (lit 2 *ᶠ (f0 *ᶠ f3 +ᶠ f1 *ᶠ f2)) (lit 1 -ᶠ lit 2 *ᶠ (f2 *ᶠ f2 +ᶠ f3 *ᶠ f3))) ∧
        |⟪Scalar.atan2 (lit 2 *ᶠ (f0 *ᶠ f3 +ᶠ f1 *ᶠ f2)) (lit 1 -ᶠ lit 2 *ᶠ (f2 *ᶠ f2 +ᶠ f3 *ᶠ f3))⟫ - psi| ≤ 15 / 10 ^ 6 / Real.cos theta) := by
  have w0 := mul_self_nonneg w
  have x0 := mul_self_nonneg x
  have y0 := mul_self_nonneg y
  have z0 := mul_self_nonneg z
  have comp : ∀ {g : F} {v : ℝ}, ⟪g⟫ = n * v → v * v ≤ 1 → |⟪g⟫| ≤ 1001 / 1000 := fun {g v} h hv => by
    rw [h, abs_mul, abs_of_nonneg n0]
    have : |v| ≤ 1 := abs_le_of_sq_le_sq (by rw [sq]; linarith) (by norm_num)
    have := abs_nonneg v
    nlinarith
  have b0 := comp e0 (by linarith)
  have b1 := comp e1 (by linarith)
  have b2 := comp e2 (by linarith)
  have b3 := comp e3 (by linarith)
  have nn := (abs_le.mp hn).2
  norm_num at nn
  -- the exact numbers
  have q1 : |2 * (w * x + y * z)| ≤ 1 := by
    rw [abs_le]
    constructor <;> nlinarith [sq_nonneg (w + x), sq_nonneg (w - x), sq_nonneg (y + z), sq_nonneg (y - z)]
  have q2 : |2 * (w * y - z * x)| ≤ 1 := by
    rw [abs_le]
    constructor <;> nlinarith [sq_nonneg (w + y), sq_nonneg (w - y), sq_nonneg (z + x), sq_nonneg (z - x)]
  have q3 : |2 * (w * z + x * y)| ≤ 1 := by
    rw [abs_le]
    constructor <;> nlinarith [sq_nonneg (w + z), sq_nonneg (w - z), sq_nonneg (x + y), sq_nonneg (x - y)]
  have s1 := scaled_near (V := 2 * (⟪f0⟫ * ⟪f1⟫ + ⟪f2⟫ * ⟪f3⟫)) (by rw [e0, e1, e2, e3]; ring) q1 hn
  have s2 := scaled_near (V := 2 * (⟪f0⟫ * ⟪f2⟫ - ⟪f3⟫ * ⟪f1⟫)) (by rw [e0, e1, e2, e3]; ring) q2 hn
  have s3 := scaled_near (V := 2 * (⟪f0⟫ * ⟪f3⟫ + ⟪f1⟫ * ⟪f2⟫)) (by rw [e0, e1, e2, e3]; ring) q3 hn
  have s4 := scaled_one_sub (V := 1 - 2 * (⟪f1⟫ * ⟪f1⟫ + ⟪f2⟫ * ⟪f2⟫)) (U := 2 * (x * x + y * y)) (by rw [e1, e2]; ring)
    (by rw [abs_le]; constructor <;> linarith) hn
  have s5 := scaled_one_sub (V := 1 - 2 * (⟪f2⟫ * ⟪f2⟫ + ⟪f3⟫ * ⟪f3⟫)) (U := 2 * (y * y + z * z)) (by rw [e2, e3]; ring)
    (by rw [abs_le]; constructor <;> linarith) hn
  have half : ∀ {V U : ℝ}, |2 * V - U| ≤ 21 / 10 ^ 7 * 1 → |U| ≤ 1 → |V| ≤ 11 / 10 := fun {V U} h h' => by
    have := le_of_dist h' h
    rw [abs_mul, abs_two] at this
    norm_num at this
    linarith
  have sqs : ∀ {u v : ℝ}, u * u + v * v ≤ 1 → n * u * (n * u) + n * v * (n * v) ≤ 101 / 100 := fun {u v} h => by
    have : n * u * (n * u) + n * v * (n * v) = n ^ 2 * (u * u + v * v) := by ring
    rw [this]
    have := mul_self_nonneg u
    have := mul_self_nonneg v
    nlinarith
  have a1 := two_prod_add h0 h1 h2 h3 b0 b1 b2 b3 (half s1 q1)
  have a2 := two_prod_sub h0 h2 h3 h1 b0 b2 b3 b1 (half s2 q2)
  have a3 := two_prod_add h0 h3 h1 h2 b0 b3 b1 b2 (half s3 q3)
  have a4 := one_sub_squares h1 h2 b1 b2 (by rw [e1, e2]; exact sqs (by linarith))
  have a5 := one_sub_squares h2 h3 b2 b3 (by rw [e2, e3]; exact sqs (by linarith))
  have of : ∀ {g : F} {V U e d e' : ℝ}, Apx g V e → |V - U| ≤ d → e + d ≤ e' → Apx g U e' :=
    fun h hd he => ⟨h.1, (dist_trans h.2 hd).trans he⟩
  have d1 := of a1 s1 (e' := 49 / 10 ^ 7) (by norm_num)
  have d2 := of a2 s2 (e' := 27 / 10 ^ 7) (by norm_num)
  have d3 := of a3 s3 (e' := 49 / 10 ^ 7) (by norm_num)
  have d4 := of a4 s4 (e' := 49 / 10 ^ 7) (by norm_num)
  have d5 := of a5 s5 (e' := 49 / 10 ^ 7) (by norm_num)
  clear a1 a2 a3 a4 a5 s1 s3 s4 s5 half sqs of comp
  have hsb : |2 * (w * y - z * x)| ≤ 999993 / 1000000 := by
    rw [abs_sub_comm] at s2
    exact (le_of_dist hg s2).trans (by norm_num)
  clear s2 q1 q2 q3
  obtain ⟨s, hsd⟩ : ∃ s, s = 2 * (w * y - z * x) := ⟨_, rfl⟩
  rw [← hsd] at hsb d2
  have hs2 : s ^ 2 ≤ (999993 / 1000000) ^ 2 := sq_le_sq' (abs_le.mp hsb).1 (abs_le.mp hsb).2
  norm_num at hs2
  have hc2 : √(1 - s ^ 2) ^ 2 = 1 - s ^ 2 := Real.sq_sqrt (by linarith)
  have hc3 : 3 / 1000 ≤ √(1 - s ^ 2) := Real.le_sqrt_of_sq_le (by norm_num; linarith)
  have hc1 : √(1 - s ^ 2) ≤ 1 := Real.sqrt_le_one.mpr (by nlinarith)
  have t1 := Real.cos_arcsin s
  have t2 := Real.sin_arcsin (x := s) (by linarith [(abs_le.mp hsb).1]) (by linarith [(abs_le.mp hsb).2])
  obtain ⟨p0, phi, p1, p2, p3⟩ := atan2_acc d1 d4 hc3 hc1 (by
    rw [hc2, hsd]
    linear_combination (4 * (x * x + y * y)) * hs)
  obtain ⟨r0, psi, r1, r2, r3⟩ := atan2_acc d3 d5 hc3 hc1 (by
    rw [hc2, hsd]
    linear_combination (4 * (y * y + z * z)) * hs)
  have k := asin_acc d2 (hsb.trans (by norm_num)) rfl
  refine ⟨phi, Real.arcsin s, psi, euler_matrix hs hsd (by linarith) hc2 t1 t2 p1 p2 r1 r2, ?_,
    abs_le.mpr ⟨Real.neg_pi_div_two_le_arcsin s, Real.arcsin_le_pi_div_two s⟩, ?_, ?_, ?_⟩ <;> rw [t1]
  · exact hc3
  · exact ⟨p0, p3⟩
  · exact k
  · exact ⟨r0, r3⟩

/-- C104: in binary32, with `asinf` and `atan2f` accurate to twice the spacing of the numbers below 4, the angles that
`convert_to_euler` returns for a quaternion of norm one up to one in a million are within 15 in a million, divided by
the cosine of the pitch, of angles that describe the rotation, as yaw after pitch after roll. -/
theorem C104_euler [A : Arcs F] {a : Vec F} {f : Nat → F} (ha : VecIs a 4 f) (hf : ∀ i, i < 4 → Finite (f i)) (hn : NearUnit f)
    (hg : |2 * (⟪f 0⟫ * ⟪f 2⟫ - ⟪f 3⟫ * ⟪f 1⟫)| ≤ 99999 / 100000) :
    ∃ (x y z : F) (phi theta psi : ℝ), Quat.convertToEuler a = .ok (x, y, z) ∧ Finite x ∧ Finite y ∧ Finite z ∧
      toMatrix 3 3 (dcmOf (‖qval f‖⁻¹ • qval f)) = rotZ psi * rotY theta * rotX phi ∧ 3 / 1000 ≤ Real.cos theta ∧
      |theta| ≤ Real.pi / 2 ∧ |⟪x⟫ - phi| ≤ 15 / 10 ^ 6 / Real.cos theta ∧ |⟪y⟫ - theta| ≤ 15 / 10 ^ 6 / Real.cos theta ∧
      |⟪z⟫ - psi| ≤ 15 / 10 ^ 6 / Real.cos theta := by
  have hn' : |‖qval f‖ - 1| ≤ 1 / 10 ^ 6 := hn
  obtain ⟨n1, n2⟩ := abs_le.mp hn'
  norm_num at n1 n2
  set n := ‖qval f‖ with hnd
  have n0 : 0 < n := by linarith
  have nn : |n ^ 2 - 1| ≤ 21 / 10 ^ 7 := by rw [abs_le]; constructor <;> norm_num <;> nlinarith
  have hsq : ⟪f 0⟫ ^ 2 + ⟪f 1⟫ ^ 2 + ⟪f 2⟫ ^ 2 + ⟪f 3⟫ ^ 2 = n ^ 2 := by
    rw [hnd, qval, norm_mkQ, Real.sq_sqrt (by positivity)]
  obtain ⟨f0, f1, f2, f3⟩ := forall_lt_four.mp hf
  have hU : ‖qval f‖⁻¹ • qval f = mkQ (⟪f 0⟫ / n) (⟪f 1⟫ / n) (⟪f 2⟫ / n) (⟪f 3⟫ / n) := by
    rw [← hnd]
    ext <;> simp [qval, div_eq_inv_mul]
  have ec : Quat.convertToEuler a = .ok (Scalar.atan2 (lit 2 *ᶠ (f 0 *ᶠ f 1 +ᶠ f 2 *ᶠ f 3)) (lit 1 -ᶠ lit 2 *ᶠ (f 1 *ᶠ f 1 +ᶠ f 2 *ᶠ f 2)),
      Scalar.asin (lit 2 *ᶠ (f 0 *ᶠ f 2 -ᶠ f 3 *ᶠ f 1)),
      Scalar.atan2 (lit 2 *ᶠ (f 0 *ᶠ f 3 +ᶠ f 1 *ᶠ f 2)) (lit 1 -ᶠ lit 2 *ᶠ (f 2 *ᶠ f 2 +ᶠ f 3 *ᶠ f 3))) := by
    unfold Quat.convertToEuler
    simp only [Quat.getQw_eq ha.four, Quat.getQx_eq ha.four, Quat.getQy_eq ha.four, Quat.getQz_eq ha.four, Res.ok_bind]
  have ed : ∀ v : ℝ, v = n * (v / n) := fun v => by field_simp
  obtain ⟨phi, theta, psi, k1, k2, kp, ⟨k0, k3⟩, ⟨k4, k5⟩, k7, k6⟩ := euler_core f0 f1 f2 f3 (ed _) (ed _) (ed _) (ed _) (by
    rw [div_mul_div_comm, div_mul_div_comm, div_mul_div_comm, div_mul_div_comm, ← add_div, ← add_div, ← add_div, div_eq_one_iff_eq (by positivity)]
    linarith [hsq]) nn n0.le (by linarith) hg
  exact ⟨_, _, _, phi, theta, psi, ec, k0, k4, k7, by rw [hU]; exact k1, k2, kp, k3, k5, k6⟩

/-- C104: when the computed sine of the pitch exceeds 1, `convert_to_euler` still answers `Ok`, and the pitch is not a number. -/
theorem C104_nan [A : Arcs F] {a : Vec F} {f : Nat → F} (ha : VecIs a 4 f)
    (hfin : Finite (lit 2 *ᶠ (f 0 *ᶠ f 2 -ᶠ f 3 *ᶠ f 1))) (h : 1 < |⟪lit 2 *ᶠ (f 0 *ᶠ f 2 -ᶠ f 3 *ᶠ f 1)⟫|) :
    ∃ x y z : F, Quat.convertToEuler a = .ok (x, y, z) ∧ Scalar.isNaN y = true := by
  unfold Quat.convertToEuler
  simp only [Quat.getQw_eq ha.four, Quat.getQx_eq ha.four, Quat.getQy_eq ha.four, Quat.getQz_eq ha.four, Res.ok_bind]
  exact ⟨_, _, _, rfl, A.asin_nan hfin h⟩

/-! ### binary32 with accurate `asinf` and `atan2f`, and concrete cases -/

theorem F32.ofReal_near_four {y : ℝ} (hy : |y| ≤ 4) : Finite (ofReal y) ∧ |toReal (ofReal y) - y| ≤ 1 / 2 ^ 21 := by
  unfold ofReal
  generalize_proofs h
  obtain ⟨h1, h2⟩ := Classical.choose_spec h
  generalize Classical.choose h = q at *
  have hd : |(q : ℝ) - y| ≤ 1 / 2 ^ 30 := by rw [abs_le]; constructor <;> linarith
  have hq := le_of_dist hy hd
  obtain ⟨k1, k2, -⟩ := fl_fin q
  have hf := k2 (by norm_num at hq ⊢; linarith)
  have hn := (k1 hf).1.bound
  have hη := rη_le
  refine ⟨hf, (dist_trans hn hd).trans ?_⟩
  norm_num at hq hη ⊢
  linarith

/-- binary32 with such functions. -/
def F32A : Type := F32

open Classical in
noncomputable instance : Scalar F32A :=
  F32.withLibm Scalar.sin Scalar.cos Scalar.acos
    (fun x => if Finite x ∧ |x.toReal| ≤ 1 then F32.ofReal (Real.arcsin x.toReal) else ⟨.nan⟩) Scalar.exp
    (fun y x => if Finite y ∧ Finite x then F32.ofReal (Complex.arg ⟨x.toReal, y.toReal⟩) else ⟨.nan⟩) Scalar.pow
noncomputable instance : Rounded F32A := F32.withLibm_rounded ..

open Classical in
instance : Arcs F32A where
  asin_near {x} hx h1 := by
    show Finite (if Finite (x : F32) ∧ |F32.toReal x| ≤ 1 then F32.ofReal (Real.arcsin (F32.toReal x)) else ⟨.nan⟩) ∧
      |F32.toReal (if Finite (x : F32) ∧ |F32.toReal x| ≤ 1 then F32.ofReal (Real.arcsin (F32.toReal x)) else ⟨.nan⟩) -
        Real.arcsin (F32.toReal x)| ≤ _
    rw [if_pos ⟨hx, h1⟩]
    refine F32.ofReal_near_four ?_
    have := Real.pi_lt_d2
    norm_num at this
    rw [abs_le]
    constructor <;> linarith [Real.arcsin_le_pi_div_two (F32.toReal x), Real.neg_pi_div_two_le_arcsin (F32.toReal x)]
  asin_nan {x} hx h1 := by
    show Scalar.isNaN (if Finite (x : F32) ∧ |F32.toReal x| ≤ 1 then F32.ofReal (Real.arcsin (F32.toReal x)) else ⟨.nan⟩) = true
    rw [if_neg (fun h => absurd h.2 (not_le.mpr h1))]
    decide +kernel
  atan2_near {y x} hy hx := by
    show Finite (if Finite (y : F32) ∧ Finite (x : F32) then F32.ofReal (Complex.arg ⟨F32.toReal x, F32.toReal y⟩) else ⟨.nan⟩) ∧
      ∃ t, _ ∧ _ ∧ |F32.toReal (if Finite (y : F32) ∧ Finite (x : F32) then F32.ofReal (Complex.arg ⟨F32.toReal x, F32.toReal y⟩) else ⟨.nan⟩) - t| ≤ _
    rw [if_pos ⟨hy, hx⟩]
    have := Real.pi_lt_d2
    norm_num at this
    obtain ⟨k1, k2⟩ := F32.ofReal_near_four (y := Complex.arg ⟨F32.toReal x, F32.toReal y⟩) (by
      linarith [Complex.abs_arg_le_pi ⟨F32.toReal x, F32.toReal y⟩])
    exact ⟨k1, _, rfl, rfl, k2⟩

end Verif
