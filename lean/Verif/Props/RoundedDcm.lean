import Verif.Props.RoundedTrack
import Verif.Props.AquaExact

/-
The direction cosine matrix and the rotation of a vector in binary32, compared with the exact ones (C88).
-/

set_option linter.unusedSectionVars false

namespace Verif
open Scalar Finset

variable {F : Type} [Scalar F] [R : Rounded F]

/-- Two products, added or subtracted. -/
theorem pair_acc (b : Bool) {x0 x1 y0 y1 : F} (hx0 : Finite x0) (hx1 : Finite x1) (hy0 : Finite y0) (hy1 : Finite y1)
    {A : ℝ} (hA : A ≤ 2 ^ 124) (hS : |⟪x0⟫ * ⟪y0⟫| + |⟪x1⟫ * ⟪y1⟫| ≤ A) :
    Finite (addsub b (x0 *ᶠ y0) (x1 *ᶠ y1)) ∧
      |⟪addsub b (x0 *ᶠ y0) (x1 *ᶠ y1)⟫ - (⟪x0⟫ * ⟪y0⟫ + sgn b * (⟪x1⟫ * ⟪y1⟫))| ≤
        2000001 / 1000000 * (A / 16777216) + 4 * rη := by
  have hη := rη_pos
  have hη' := rη_le
  have n0 := abs_nonneg (⟪x0⟫ * ⟪y0⟫)
  have n1 := abs_nonneg (⟪x1⟫ * ⟪y1⟫)
  rw [show (2 : ℝ) ^ 124 = 21267647932558653966460912964485513216 by norm_num] at hA
  have big : (2 : ℝ) ^ 127 = 170141183460469231731687303715884105728 := by norm_num
  norm_num at hη'
  have f0 : Finite (x0 *ᶠ y0) := R.mul_finite hx0 hy0 (by rw [big]; linarith)
  have f1 : Finite (x1 *ᶠ y1) := R.mul_finite hx1 hy1 (by rw [big]; linarith)
  have e0 := (R.mul_near hx0 hy0 f0).bound
  have e1 := (R.mul_near hx1 hy1 f1).bound
  have s0 := le_of_dist le_rfl e0
  have s1 := le_of_dist le_rfl e1
  cases b
  · have t := abs_add_le ⟪x0 *ᶠ y0⟫ ⟪x1 *ᶠ y1⟫
    have f2 : Finite (x0 *ᶠ y0 +ᶠ x1 *ᶠ y1) := R.add_finite f0 f1 (by rw [big]; linarith)
    have e2 := (R.add_near f0 f1 f2).bound
    refine ⟨f2, ?_⟩
    simp only [addsub, sgn, Bool.false_eq_true, if_false, one_mul]
    have t2 := abs_add_le (⟪x0 *ᶠ y0⟫ - ⟪x0⟫ * ⟪y0⟫) (⟪x1 *ᶠ y1⟫ - ⟪x1⟫ * ⟪y1⟫)
    rw [show ⟪x0 *ᶠ y0⟫ - ⟪x0⟫ * ⟪y0⟫ + (⟪x1 *ᶠ y1⟫ - ⟪x1⟫ * ⟪y1⟫) =
      ⟪x0 *ᶠ y0⟫ + ⟪x1 *ᶠ y1⟫ - (⟪x0⟫ * ⟪y0⟫ + ⟪x1⟫ * ⟪y1⟫) by ring] at t2
    refine (dist_trans e2 t2).trans ?_
    linarith
  · have t := abs_sub ⟪x0 *ᶠ y0⟫ ⟪x1 *ᶠ y1⟫
    have f2 : Finite (x0 *ᶠ y0 -ᶠ x1 *ᶠ y1) := R.sub_finite f0 f1 (by rw [big]; linarith)
    have e2 := (R.sub_near f0 f1 f2).bound
    refine ⟨f2, ?_⟩
    simp only [addsub, sgn, if_true]
    have t2 := abs_sub (⟪x0 *ᶠ y0⟫ - ⟪x0⟫ * ⟪y0⟫) (⟪x1 *ᶠ y1⟫ - ⟪x1⟫ * ⟪y1⟫)
    rw [show ⟪x0 *ᶠ y0⟫ - ⟪x0⟫ * ⟪y0⟫ - (⟪x1 *ᶠ y1⟫ - ⟪x1⟫ * ⟪y1⟫) =
      ⟪x0 *ᶠ y0⟫ - ⟪x1 *ᶠ y1⟫ - (⟪x0⟫ * ⟪y0⟫ + -1 * (⟪x1⟫ * ⟪y1⟫)) by ring] at t2
    refine (dist_trans e2 t2).trans ?_
    linarith

/-- Twice such a sum. -/
theorem twice_acc (b : Bool) {x0 x1 y0 y1 : F} (hx0 : Finite x0) (hx1 : Finite x1) (hy0 : Finite y0) (hy1 : Finite y1)
    {A : ℝ} (hA : A ≤ 2 ^ 124) (hS : |⟪x0⟫ * ⟪y0⟫| + |⟪x1⟫ * ⟪y1⟫| ≤ A) :
    Finite (lit 2 *ᶠ addsub b (x0 *ᶠ y0) (x1 *ᶠ y1)) ∧
      |⟪lit 2 *ᶠ addsub b (x0 *ᶠ y0) (x1 *ᶠ y1)⟫ - 2 * (⟪x0⟫ * ⟪y0⟫ + sgn b * (⟪x1⟫ * ⟪y1⟫))| ≤
        600001 / 100000 * (A / 16777216) + 10 * rη := by
  have hη := rη_pos
  have hη' := rη_le
  obtain ⟨f, e⟩ := pair_acc b hx0 hx1 hy0 hy1 hA hS
  have n0 := abs_nonneg (⟪x0⟫ * ⟪y0⟫)
  have n1 := abs_nonneg (⟪x1⟫ * ⟪y1⟫)
  have hb : |sgn b * (⟪x1⟫ * ⟪y1⟫)| = |⟪x1⟫ * ⟪y1⟫| := by
    unfold sgn
    cases b <;> simp [abs_mul]
  have hs := abs_add_le (⟪x0⟫ * ⟪y0⟫) (sgn b * (⟪x1⟫ * ⟪y1⟫))
  rw [hb] at hs
  generalize addsub b (x0 *ᶠ y0) (x1 *ᶠ y1) = s at *
  generalize ⟪x0⟫ * ⟪y0⟫ + sgn b * (⟪x1⟫ * ⟪y1⟫) = S at *
  have h1 := le_of_dist (hs.trans hS) e
  rw [show (2 : ℝ) ^ 124 = 21267647932558653966460912964485513216 by norm_num] at hA
  have big : (2 : ℝ) ^ 127 = 170141183460469231731687303715884105728 := by norm_num
  norm_num at hη'
  have h2 : |(2 : ℝ) * ⟪s⟫| = 2 * |⟪s⟫| := by rw [abs_mul]; norm_num
  have f2 : Finite (lit 2 *ᶠ s) := R.mul_finite R.two_finite f (by rw [R.two_val, h2, big]; linarith)
  have e2 := (R.mul_near R.two_finite f f2).bound
  rw [R.two_val, h2] at e2
  refine ⟨f2, ?_⟩
  have h3 : |2 * ⟪s⟫ - 2 * S| = 2 * |⟪s⟫ - S| := by rw [← mul_sub, abs_mul]; norm_num
  refine (dist_trans e2 (le_of_eq h3)).trans ?_
  linarith

/-- One minus twice such a sum. -/
theorem one_sub_acc {x0 x1 y0 y1 : F} (hx0 : Finite x0) (hx1 : Finite x1) (hy0 : Finite y0) (hy1 : Finite y1)
    {A : ℝ} (hA : A ≤ 2 ^ 124) (hS : |⟪x0⟫ * ⟪y0⟫| + |⟪x1⟫ * ⟪y1⟫| ≤ A) :
    Finite (lit 1 -ᶠ lit 2 *ᶠ (x0 *ᶠ y0 +ᶠ x1 *ᶠ y1)) ∧
      |⟪lit 1 -ᶠ lit 2 *ᶠ (x0 *ᶠ y0 +ᶠ x1 *ᶠ y1)⟫ - (1 - 2 * (⟪x0⟫ * ⟪y0⟫ + ⟪x1⟫ * ⟪y1⟫))| ≤
        9 / 2 ^ 24 * (1 + A) := by
  have hη := rη_pos
  have hη' := rη_le
  obtain ⟨f, e⟩ := twice_acc false hx0 hx1 hy0 hy1 hA hS
  simp only [addsub, sgn, Bool.false_eq_true, if_false, one_mul] at f e
  have n0 := abs_nonneg (⟪x0⟫ * ⟪y0⟫)
  have n1 := abs_nonneg (⟪x1⟫ * ⟪y1⟫)
  have hs := abs_add_le (⟪x0⟫ * ⟪y0⟫) (⟪x1⟫ * ⟪y1⟫)
  generalize lit 2 *ᶠ (x0 *ᶠ y0 +ᶠ x1 *ᶠ y1) = s at *
  generalize ⟪x0⟫ * ⟪y0⟫ + ⟪x1⟫ * ⟪y1⟫ = S at *
  have h2 : |(2 : ℝ) * S| ≤ 2 * A := by rw [abs_mul]; norm_num; linarith
  have h1 := le_of_dist h2 e
  rw [show (2 : ℝ) ^ 124 = 21267647932558653966460912964485513216 by norm_num] at hA
  have big : (2 : ℝ) ^ 127 = 170141183460469231731687303715884105728 := by norm_num
  norm_num at hη'
  have h3 := abs_sub (1 : ℝ) ⟪s⟫
  rw [abs_one] at h3
  have f2 : Finite (lit 1 -ᶠ s) := R.sub_finite R.one_finite f (by rw [R.one_val, big]; linarith)
  have e2 := (R.sub_near R.one_finite f f2).bound
  rw [R.one_val] at e2
  refine ⟨f2, ?_⟩
  have h4 : |1 - ⟪s⟫ - (1 - 2 * S)| ≤ 600001 / 100000 * (A / 16777216) + 10 * rη := by
    rw [show 1 - ⟪s⟫ - (1 - 2 * S) = -(⟪s⟫ - 2 * S) by ring, abs_neg]
    exact e
  refine (dist_trans e2 h4).trans ?_
  norm_num
  linarith

/-- The first cell of the matrix. -/
theorem first_acc {w x y z : F} (hw : Finite w) (hx : Finite x) (hy : Finite y) (hz : Finite z)
    {A : ℝ} (hA : A ≤ 2 ^ 124) (hS : ⟪w⟫ ^ 2 + ⟪x⟫ ^ 2 + ⟪y⟫ ^ 2 + ⟪z⟫ ^ 2 ≤ A) :
    Finite (w *ᶠ w +ᶠ x *ᶠ x -ᶠ y *ᶠ y -ᶠ z *ᶠ z) ∧
      |⟪w *ᶠ w +ᶠ x *ᶠ x -ᶠ y *ᶠ y -ᶠ z *ᶠ z⟫ - (⟪w⟫ * ⟪w⟫ + ⟪x⟫ * ⟪x⟫ - ⟪y⟫ * ⟪y⟫ - ⟪z⟫ * ⟪z⟫)| ≤
        9 / 2 ^ 24 * (1 + A) := by
  have hη := rη_pos
  have hη' := rη_le
  have w0 := mul_self_nonneg ⟪w⟫
  have x0 := mul_self_nonneg ⟪x⟫
  have y0 := mul_self_nonneg ⟪y⟫
  have z0 := mul_self_nonneg ⟪z⟫
  simp only [sq] at hS
  obtain ⟨f, e⟩ := pair_acc false hw hx hw hx (A := ⟪w⟫ * ⟪w⟫ + ⟪x⟫ * ⟪x⟫) (by
    norm_num at hA ⊢
    linarith) (by rw [abs_of_nonneg w0, abs_of_nonneg x0])
  simp only [addsub, sgn, Bool.false_eq_true, if_false, one_mul] at f e
  rw [show (2 : ℝ) ^ 124 = 21267647932558653966460912964485513216 by norm_num] at hA
  have big : (2 : ℝ) ^ 127 = 170141183460469231731687303715884105728 := by norm_num
  norm_num at hη'
  have f1 : Finite (y *ᶠ y) := R.mul_finite hy hy (by rw [big, abs_of_nonneg y0]; linarith)
  have f2 : Finite (z *ᶠ z) := R.mul_finite hz hz (by rw [big, abs_of_nonneg z0]; linarith)
  have e1 := (R.mul_near hy hy f1).bound
  have e2 := (R.mul_near hz hz f2).bound
  rw [abs_of_nonneg y0] at e1
  rw [abs_of_nonneg z0] at e2
  generalize w *ᶠ w +ᶠ x *ᶠ x = s at *
  generalize y *ᶠ y = p at *
  generalize z *ᶠ z = q at *
  generalize hB : ⟪w⟫ * ⟪w⟫ + ⟪x⟫ * ⟪x⟫ = B at *
  generalize ⟪y⟫ * ⟪y⟫ = Y at *
  generalize ⟪z⟫ * ⟪z⟫ = Z at *
  have B0 : 0 ≤ B := by linarith
  have s1 := le_of_dist (le_of_eq (abs_of_nonneg B0)) e
  have s2 := le_of_dist (le_of_eq (abs_of_nonneg y0)) e1
  have s3 := le_of_dist (le_of_eq (abs_of_nonneg z0)) e2
  have t1 := abs_sub ⟪s⟫ ⟪p⟫
  have f3 : Finite (s -ᶠ p) := R.sub_finite f f1 (by rw [big]; linarith)
  have e3 := (R.sub_near f f1 f3).bound
  have e4 : |⟪s⟫ - ⟪p⟫ - (B - Y)| ≤ |⟪s⟫ - B| + |⟪p⟫ - Y| := by
    rw [show ⟪s⟫ - ⟪p⟫ - (B - Y) = (⟪s⟫ - B) - (⟪p⟫ - Y) by ring]
    exact abs_sub _ _
  have s4 := le_of_dist t1 e3
  have t2 := abs_sub ⟪s -ᶠ p⟫ ⟪q⟫
  have f4 : Finite (s -ᶠ p -ᶠ q) := R.sub_finite f3 f2 (by rw [big]; linarith)
  have e5 := (R.sub_near f3 f2 f4).bound
  have e6 : |⟪s -ᶠ p⟫ - ⟪q⟫ - (B - Y - Z)| ≤ |⟪s -ᶠ p⟫ - (B - Y)| + |⟪q⟫ - Z| := by
    rw [show ⟪s -ᶠ p⟫ - ⟪q⟫ - (B - Y - Z) = (⟪s -ᶠ p⟫ - (B - Y)) - (⟪q⟫ - Z) by ring]
    exact abs_sub _ _
  have e7 := dist_trans e3 e4
  refine ⟨f4, (dist_trans e5 e6).trans ?_⟩
  norm_num
  linarith

/-- C88: `convert_to_dcm` in binary32: for finite components and a norm up to `2⁶⁰` it succeeds, and each
entry is the exact one up to `9 / 2²⁴` of one plus the squared norm. -/
theorem C88_dcm {a : Vec F} {f : Nat → F} (ha : VecIs a 4 f) (hf : ∀ i, i < 4 → Finite (f i))
    (hn : ‖qval f‖ ≤ 2 ^ 60) :
    ∃ m D, Quat.convertToDcm a = .ok m ∧ MatIs m 3 3 D ∧ ∀ i j, i < 3 → j < 3 → Finite (D i j) ∧
      |⟪D i j⟫ - dcmOf (qval f) i j| ≤ 9 / 2 ^ 24 * (1 + ‖qval f‖ ^ 2) := by
  obtain ⟨hw, hx, hy, hz⟩ := forall_lt_four.mp hf
  have ha' : VecIs a 4 (seq4 (f 0) (f 1) (f 2) (f 3)) := ha.congr (forall_lt_four.mpr ⟨rfl, rfl, rfl, rfl⟩)
  have hN : ‖qval f‖ ^ 2 = ⟪f 0⟫ ^ 2 + ⟪f 1⟫ ^ 2 + ⟪f 2⟫ ^ 2 + ⟪f 3⟫ ^ 2 := by
    rw [qval, norm_mkQ, Real.sq_sqrt (by positivity)]
  have hA : ‖qval f‖ ^ 2 ≤ 2 ^ 124 := by
    calc ‖qval f‖ ^ 2 ≤ (2 ^ 60) ^ 2 := pow_le_pow_left₀ (norm_nonneg _) hn 2
      _ ≤ _ := by norm_num
  generalize hAd : ‖qval f‖ ^ 2 = A at *
  have hA0 : 0 ≤ A := by rw [← hAd]; positivity
  have hη := rη_pos
  have hη' := rη_le
  -- off the diagonal
  have off : ∀ (b : Bool) {x0 x1 y0 y1 : F}, Finite x0 → Finite x1 → Finite y0 → Finite y1 →
      ⟪x0⟫ ^ 2 + ⟪x1⟫ ^ 2 + ⟪y0⟫ ^ 2 + ⟪y1⟫ ^ 2 = A →
      Finite (lit 2 *ᶠ addsub b (x0 *ᶠ y0) (x1 *ᶠ y1)) ∧
      |⟪lit 2 *ᶠ addsub b (x0 *ᶠ y0) (x1 *ᶠ y1)⟫ - 2 * (⟪x0⟫ * ⟪y0⟫ + sgn b * (⟪x1⟫ * ⟪y1⟫))| ≤
        9 / 2 ^ 24 * (1 + A) := by
    intro b x0 x1 y0 y1 h0 h1 h2 h3 hs
    have k : |⟪x0⟫ * ⟪y0⟫| + |⟪x1⟫ * ⟪y1⟫| ≤ A := by
      have k1 : |⟪x0⟫ * ⟪y0⟫| ≤ ⟪x0⟫ ^ 2 + ⟪y0⟫ ^ 2 := by
        rw [abs_le]
        constructor <;> nlinarith [sq_nonneg (⟪x0⟫ - ⟪y0⟫), sq_nonneg (⟪x0⟫ + ⟪y0⟫)]
      have k2 : |⟪x1⟫ * ⟪y1⟫| ≤ ⟪x1⟫ ^ 2 + ⟪y1⟫ ^ 2 := by
        rw [abs_le]
        constructor <;> nlinarith [sq_nonneg (⟪x1⟫ - ⟪y1⟫), sq_nonneg (⟪x1⟫ + ⟪y1⟫)]
      linarith
    obtain ⟨u1, u2⟩ := twice_acc b h0 h1 h2 h3 hA k
    refine ⟨u1, u2.trans ?_⟩
    norm_num at hη' ⊢
    linarith
  have diag : ∀ {x y : F}, Finite x → Finite y → ⟪x⟫ ^ 2 + ⟪y⟫ ^ 2 ≤ A →
      Finite (lit 1 -ᶠ lit 2 *ᶠ (x *ᶠ x +ᶠ y *ᶠ y)) ∧
      |⟪lit 1 -ᶠ lit 2 *ᶠ (x *ᶠ x +ᶠ y *ᶠ y)⟫ - (1 - 2 * (⟪x⟫ * ⟪x⟫ + ⟪y⟫ * ⟪y⟫))| ≤ 9 / 2 ^ 24 * (1 + A) := by
    intro x y h0 h1 hs
    refine one_sub_acc h0 h1 h0 h1 hA ?_
    rw [abs_of_nonneg (mul_self_nonneg _), abs_of_nonneg (mul_self_nonneg _), ← sq, ← sq]
    exact hs
  have c00 := first_acc hw hx hy hz hA (le_of_eq hN.symm)
  have c01 := off true hx hw hy hz (by linarith)
  have c02 := off false hx hw hz hy (by linarith)
  have c10 := off false hx hw hy hz (by linarith)
  have c11 := diag hx hz (by nlinarith [sq_nonneg ⟪f 0⟫, sq_nonneg ⟪f 2⟫])
  have c12 := off true hy hw hz hx (by linarith)
  have c20 := off true hx hw hz hy (by linarith)
  have c21 := off false hw hy hx hz (by linarith)
  have c22 := diag hx hy (by nlinarith [sq_nonneg ⟪f 0⟫, sq_nonneg ⟪f 3⟫])
  simp only [addsub, sgn, Bool.false_eq_true, if_true, if_false, one_mul, neg_mul, ← sub_eq_add_neg] at c01 c02 c10 c12 c20 c21
  have h0 := Mat.zeros_is (F := F) (r := 3) (c := 3) (by omega) (by omega) (by omega) (by omega)
  obtain ⟨m1, e1, h1⟩ := h0.exec_set (i := 0) (j := 0) (by omega) (by omega) c00.1
  obtain ⟨m2, e2, h2⟩ := h1.exec_set (i := 0) (j := 1) (by omega) (by omega) c01.1
  obtain ⟨m3, e3, h3⟩ := h2.exec_set (i := 0) (j := 2) (by omega) (by omega) c02.1
  obtain ⟨m4, e4, h4⟩ := h3.exec_set (i := 1) (j := 0) (by omega) (by omega) c10.1
  obtain ⟨m5, e5, h5⟩ := h4.exec_set (i := 1) (j := 1) (by omega) (by omega) c11.1
  obtain ⟨m6, e6, h6⟩ := h5.exec_set (i := 1) (j := 2) (by omega) (by omega) c12.1
  obtain ⟨m7, e7, h7⟩ := h6.exec_set (i := 2) (j := 0) (by omega) (by omega) c20.1
  obtain ⟨m8, e8, h8⟩ := h7.exec_set (i := 2) (j := 1) (by omega) (by omega) c21.1
  obtain ⟨m9, e9, h9⟩ := h8.exec_set (i := 2) (j := 2) (by omega) (by omega) c22.1
  refine ⟨m9, _, ?_, h9, ?_⟩
  · unfold Quat.convertToDcm
    simp only [Mat.init_new (F := F) (r := 3) (c := 3) (by omega) (by omega) (by omega) (by omega),
      Res.ok_bind, Quat.getQw_eq ha', Quat.getQx_eq ha', Quat.getQy_eq ha', Quat.getQz_eq ha', e1, e2, e3, e4, e5,
      e6, e7, e8, e9]
  · intro i j hi hj
    rcases i with _ | _ | _ | i <;> [skip; skip; skip; omega] <;>
      rcases j with _ | _ | _ | j <;> first | omega | skip
    · exact c00
    · exact c01
    · exact c02
    · exact c10
    · exact c11
    · exact c12
    · exact c20
    · exact c21
    · exact c22

/-- A row of a matrix times a vector. -/
theorem row3_acc {a v : Nat → F} {d : Nat → ℝ} {e V : ℝ} (ha : ∀ j, j < 3 → Finite (a j))
    (hv : ∀ j, j < 3 → Finite (v j)) (hd : ∀ j, j < 3 → |d j| ≤ 1001 / 1000) (he : ∀ j, j < 3 → |⟪a j⟫ - d j| ≤ e)
    (he' : e ≤ 1 / 1000) (hV : norm2 3 (fun j => ⟪v j⟫) ≤ V) (hV' : V ≤ 2 ^ 120) :
    (∀ k, k ≤ 3 → Finite (sumUp k fun j => a j *ᶠ v j)) ∧
      |⟪sumUp 3 fun j => a j *ᶠ v j⟫ - (d 0 * ⟪v 0⟫ + d 1 * ⟪v 1⟫ + d 2 * ⟪v 2⟫)| ≤
        (7 / 4 * e + 16 / 2 ^ 24) * V + 9 * rη := by
  have hη := rη_pos
  have hη' := rη_le
  have he0 : 0 ≤ e := (abs_nonneg _).trans (he 0 (by omega))
  have hV0 : 0 ≤ V := (norm2_nonneg _ _).trans hV
  have hs : |⟪v 0⟫| + |⟪v 1⟫| + |⟪v 2⟫| ≤ 7 / 4 * V := by
    have h1 := norm2_sq 3 (fun j => ⟪v j⟫)
    simp only [Finset.sum_range_succ, Finset.sum_range_zero, zero_add] at h1
    have h2 : norm2 3 (fun j => ⟪v j⟫) ^ 2 ≤ V ^ 2 := pow_le_pow_left₀ (norm2_nonneg _ _) hV 2
    refine abs_le_of_sq_le_sq' ?_ (by positivity) |>.2
    rw [← sq_abs ⟪v 0⟫, ← sq_abs ⟪v 1⟫, ← sq_abs ⟪v 2⟫] at h1
    nlinarith [sq_nonneg (|⟪v 0⟫| - |⟪v 1⟫|), sq_nonneg (|⟪v 0⟫| - |⟪v 2⟫|), sq_nonneg (|⟪v 1⟫| - |⟪v 2⟫|)]
  have c : ∀ j, j < 3 → |⟪a j⟫ * ⟪v j⟫ - d j * ⟪v j⟫| ≤ e * |⟪v j⟫| := fun j hj => by
    rw [← sub_mul, abs_mul]
    have := he j hj
    gcongr
  have b : ∀ j, j < 3 → |⟪a j⟫ * ⟪v j⟫| ≤ 1002 / 1000 * |⟪v j⟫| := fun j hj => by
    rw [abs_mul]
    have h1 := le_of_dist (hd j hj) (he j hj)
    gcongr
    linarith
  have c0 := c 0 (by omega)
  have c1 := c 1 (by omega)
  have c2 := c 2 (by omega)
  have b0 := b 0 (by omega)
  have b1 := b 1 (by omega)
  have b2 := b 2 (by omega)
  have hsum : ∑ j ∈ range 3, |⟪a j⟫ * ⟪v j⟫| ≤ 1754 / 1000 * V := by
    simp only [Finset.sum_range_succ, Finset.sum_range_zero, zero_add]
    linarith
  have key := dot_acc (n := 3) (by omega) ha hv (hsum.trans (by
    norm_num at hV' ⊢
    linarith))
  refine ⟨fun k hk => (key k hk).1, ?_⟩
  have k3 := (key 3 le_rfl).2
  have hu : ru = 1 / 16777216 := by unfold ru; norm_num
  have e1 : |∑ j ∈ range 3, ⟪a j⟫ * ⟪v j⟫ - (d 0 * ⟪v 0⟫ + d 1 * ⟪v 1⟫ + d 2 * ⟪v 2⟫)| ≤ e * (7 / 4 * V) := by
    simp only [Finset.sum_range_succ, Finset.sum_range_zero, zero_add]
    rw [show ⟪a 0⟫ * ⟪v 0⟫ + ⟪a 1⟫ * ⟪v 1⟫ + ⟪a 2⟫ * ⟪v 2⟫ - (d 0 * ⟪v 0⟫ + d 1 * ⟪v 1⟫ + d 2 * ⟪v 2⟫) =
        (⟪a 0⟫ * ⟪v 0⟫ - d 0 * ⟪v 0⟫) + (⟪a 1⟫ * ⟪v 1⟫ - d 1 * ⟪v 1⟫) + (⟪a 2⟫ * ⟪v 2⟫ - d 2 * ⟪v 2⟫) by ring]
    refine (abs_add_three _ _ _).trans ?_
    calc _ ≤ e * (|⟪v 0⟫| + |⟪v 1⟫| + |⟪v 2⟫|) := by linarith
      _ ≤ _ := by gcongr
  refine (dist_trans k3 e1).trans ?_
  rw [hu]
  push_cast
  linarith

/-- The entries of the matrix of a nearly unit quaternion. -/
theorem dcmOf_le {q : Quaternion ℝ} (h : |‖q‖ - 1| ≤ 1 / 10 ^ 5) {i j : Nat} (hi : i < 3) (hj : j < 3) :
    |dcmOf q i j| ≤ 1001 / 1000 := by
  obtain ⟨h1, h2⟩ := abs_le.mp h
  have hN : ‖q‖ ^ 2 = q.re ^ 2 + q.imI ^ 2 + q.imJ ^ 2 + q.imK ^ 2 := by
    rw [quat_norm, Real.sq_sqrt Quaternion.normSq_nonneg, Quaternion.normSq_def']
  have hN1 : ‖q‖ ^ 2 ≤ 1001 / 1000 := by nlinarith
  rw [hN] at hN1
  have w0 := sq_nonneg q.re
  have x0 := sq_nonneg q.imI
  have y0 := sq_nonneg q.imJ
  have z0 := sq_nonneg q.imK
  rcases i with _ | _ | _ | i <;> [skip; skip; skip; omega] <;>
    rcases j with _ | _ | _ | j <;> first | omega | skip
  all_goals
    rw [abs_le]
    simp only [dcmOf, tbl, List.getD_cons_zero, List.getD_cons_succ]
  · constructor <;> nlinarith
  · constructor <;> nlinarith [sq_nonneg (q.imI - q.imJ), sq_nonneg (q.imI + q.imJ), sq_nonneg (q.re - q.imK), sq_nonneg (q.re + q.imK)]
  · constructor <;> nlinarith [sq_nonneg (q.imI - q.imK), sq_nonneg (q.imI + q.imK), sq_nonneg (q.re - q.imJ), sq_nonneg (q.re + q.imJ)]
  · constructor <;> nlinarith [sq_nonneg (q.imI - q.imJ), sq_nonneg (q.imI + q.imJ), sq_nonneg (q.re - q.imK), sq_nonneg (q.re + q.imK)]
  · constructor <;> nlinarith
  · constructor <;> nlinarith [sq_nonneg (q.imJ - q.imK), sq_nonneg (q.imJ + q.imK), sq_nonneg (q.re - q.imI), sq_nonneg (q.re + q.imI)]
  · constructor <;> nlinarith [sq_nonneg (q.imI - q.imK), sq_nonneg (q.imI + q.imK), sq_nonneg (q.re - q.imJ), sq_nonneg (q.re + q.imJ)]
  · constructor <;> nlinarith [sq_nonneg (q.imJ - q.imK), sq_nonneg (q.imJ + q.imK), sq_nonneg (q.re - q.imI), sq_nonneg (q.re + q.imI)]
  · constructor <;> nlinarith

theorem mkQ_sub_three (a b c x y z : ℝ) : mkQ 0 a b c - mkQ 0 x y z = mkQ 0 (a - x) (b - y) (c - z) := by
  apply Quaternion.ext <;> simp

/-- A vector as a pure quaternion. -/
noncomputable def vval (g : Nat → F) : Quaternion ℝ := mkQ 0 ⟪g 0⟫ ⟪g 1⟫ ⟪g 2⟫

theorem norm_vval (g : Nat → F) : ‖vval g‖ = norm2 3 (fun i => ⟪g i⟫) := by
  rw [vval, norm_mkQ]
  simp [norm2, Finset.sum_range_succ]

/-- The matrix of any quaternion, and its transpose, up to the defect of the norm. -/
theorem dcmOf_any (q : Quaternion ℝ) (x y z : ℝ) :
    mkQ 0 (dcmOf q 0 0 * x + dcmOf q 0 1 * y + dcmOf q 0 2 * z)
        (dcmOf q 1 0 * x + dcmOf q 1 1 * y + dcmOf q 1 2 * z)
        (dcmOf q 2 0 * x + dcmOf q 2 1 * y + dcmOf q 2 2 * z) =
      q * mkQ 0 x y z * star q + (1 - ‖q‖ ^ 2) • mkQ 0 0 y z := by
  have hN : ‖q‖ ^ 2 = q.re ^ 2 + q.imI ^ 2 + q.imJ ^ 2 + q.imK ^ 2 := by
    rw [quat_norm, Real.sq_sqrt Quaternion.normSq_nonneg, Quaternion.normSq_def']
  rw [hN]
  apply Quaternion.ext <;> simp [dcmOf, tbl, Quaternion.re_mul, Quaternion.imI_mul, Quaternion.imJ_mul,
    Quaternion.imK_mul] <;> ring

theorem dcmOf_any_transpose (q : Quaternion ℝ) (x y z : ℝ) :
    mkQ 0 (dcmOf q 0 0 * x + dcmOf q 1 0 * y + dcmOf q 2 0 * z)
        (dcmOf q 0 1 * x + dcmOf q 1 1 * y + dcmOf q 2 1 * z)
        (dcmOf q 0 2 * x + dcmOf q 1 2 * y + dcmOf q 2 2 * z) =
      star q * mkQ 0 x y z * q + (1 - ‖q‖ ^ 2) • mkQ 0 0 y z := by
  have hN : ‖q‖ ^ 2 = q.re ^ 2 + q.imI ^ 2 + q.imJ ^ 2 + q.imK ^ 2 := by
    rw [quat_norm, Real.sq_sqrt Quaternion.normSq_nonneg, Quaternion.normSq_def']
  rw [hN]
  apply Quaternion.ext <;> simp [dcmOf, tbl, Quaternion.re_mul, Quaternion.imI_mul, Quaternion.imJ_mul,
    Quaternion.imK_mul] <;> ring

theorem norm_yz_le (x y z : ℝ) : ‖mkQ 0 0 y z‖ ≤ ‖mkQ 0 x y z‖ := by
  rw [norm_mkQ, norm_mkQ]
  exact Real.sqrt_le_sqrt (by nlinarith [sq_nonneg x])

/-- The defect of the norm. -/
theorem defect_le {q : Quaternion ℝ} {e : ℝ} (h : |‖q‖ - 1| ≤ e) (he : e ≤ 1 / 10 ^ 5) (x y z : ℝ) :
    ‖(1 - ‖q‖ ^ 2) • mkQ 0 0 y z‖ ≤ 20001 / 10000 * e * ‖mkQ 0 x y z‖ := by
  rw [norm_smul, Real.norm_eq_abs]
  have he0 : 0 ≤ e := (abs_nonneg _).trans h
  have h0 := norm_nonneg q
  have h1 : |1 - ‖q‖ ^ 2| ≤ 20001 / 10000 * e := by
    rw [show 1 - ‖q‖ ^ 2 = -((‖q‖ - 1) * (‖q‖ + 1)) by ring, abs_neg, abs_mul, abs_of_nonneg (show 0 ≤ ‖q‖ + 1 by linarith)]
    have h2 := (abs_le.mp h).2
    calc |‖q‖ - 1| * (‖q‖ + 1) ≤ e * (20001 / 10000) := by
          gcongr
          norm_num at he
          linarith
      _ = _ := by ring
  exact mul_le_mul h1 (norm_yz_le x y z) (norm_nonneg _) (by positivity)

/-- C88: `rotate` and `rotate_in_place` in binary32: for a quaternion of norm 1 up to one in a million and a vector
of norm up to `2¹⁰⁰` they succeed, with the same vector, which is `q v q*` up to `10⁻⁵` of the norm of `v`. -/
theorem C88_rotate {a v : Vec F} {f g : Nat → F} (ha : VecIs a 4 f) (hf : ∀ i, i < 4 → Finite (f i))
    (hn : NearUnit f) (hv : VecIs v 3 g) (hg : ∀ i, i < 3 → Finite (g i)) (hV : ‖vval g‖ ≤ 2 ^ 100) :
    ∃ r r' h, Quat.rotate a v = .ok r ∧ Quat.rotateInPlace a v = (.ok (), r') ∧ VecIs r 3 h ∧ VecIs r' 3 h ∧
      (∀ i, i < 3 → Finite (h i)) ∧
      ‖vval h - qval f * vval g * star (qval f)‖ ≤ 1 / 10 ^ 5 * ‖vval g‖ + 1 / 2 ^ 140 := by
  have hn' : |‖qval f‖ - 1| ≤ 1 / 10 ^ 6 := hn
  have hn5 : |‖qval f‖ - 1| ≤ 1 / 10 ^ 5 := hn'.trans (by norm_num)
  obtain ⟨n1, n2⟩ := abs_le.mp hn'
  have hn2 : ‖qval f‖ ^ 2 ≤ 1000003 / 1000000 := by nlinarith [norm_nonneg (qval f)]
  obtain ⟨m, D, e1, hm, hD⟩ := C88_dcm ha hf (by norm_num at n2 ⊢; linarith)
  have he : ∀ i j, i < 3 → j < 3 → |⟪D i j⟫ - dcmOf (qval f) i j| ≤ 181 / 10 / 2 ^ 24 := fun i j hi hj =>
    (hD i j hi hj).2.trans (by norm_num; linarith)
  rw [norm_vval] at hV
  have hrow := fun i (hi : i < 3) => row3_acc (a := D i) (v := g) (fun j hj => (hD i j hi hj).1) hg
    (fun j hj => dcmOf_le hn5 hi hj) (fun j hj => he i j hi hj) (by norm_num) le_rfl (hV.trans (by norm_num))
  obtain ⟨c, e2, hc⟩ := Vec.convertToMatrix_ok hv hg
  obtain ⟨w, e3, hw⟩ := Mat.mulNew_ok hm hc fun i j l hi hj hl => (hrow i hi).1 (l + 1) hl
  have hw' : MatIs w 3 1 (fun i _ => sumUp 3 fun j => D i j *ᶠ g j) := hw
  obtain ⟨r, e4, hr⟩ := Mat.colToVector_ok hw' (show 0 < 1 by omega) fun i hi => (hrow i hi).1 3 le_rfl
  have e : Quat.rotate a v = .ok r := by
    unfold Quat.rotate
    rw [hv.rows, Res.ok_bind]
    simp only [ne_eq, not_true, if_false, e1, e2, e3, e4, Res.ok_bind]
  obtain ⟨k1, h', k2, k3⟩ := (C37_agree hv hg).2 r e
  refine ⟨r, (Quat.rotateInPlace a v).2, _, e, by rw [← k1], hr, k3.congr fun i hi => ?_, fun i hi => (hrow i hi).1 3 le_rfl, ?_⟩
  · exact Except.ok.inj ((k2.get i hi).symm.trans (hr.get i hi))
  · have d1 := dcmOf_any (qval f) ⟪g 0⟫ ⟪g 1⟫ ⟪g 2⟫
    have d2 := defect_le hn' (by norm_num) ⟪g 0⟫ ⟪g 1⟫ ⟪g 2⟫
    obtain ⟨r0, r1, r2⟩ := forall_lt_three.mp fun i (hi : i < 3) => (hrow i hi).2
    have n3 := norm_three r0 r1 r2
    rw [← norm_vval] at n3
    have hη' : rη = 1 / 2 ^ 150 := rfl
    rw [show vval g = mkQ 0 ⟪g 0⟫ ⟪g 1⟫ ⟪g 2⟫ from rfl] at n3 ⊢
    have e5 := mkQ_sub_three ⟪sumUp 3 fun j => D 0 j *ᶠ g j⟫ ⟪sumUp 3 fun j => D 1 j *ᶠ g j⟫ ⟪sumUp 3 fun j => D 2 j *ᶠ g j⟫
      (dcmOf (qval f) 0 0 * ⟪g 0⟫ + dcmOf (qval f) 0 1 * ⟪g 1⟫ + dcmOf (qval f) 0 2 * ⟪g 2⟫)
      (dcmOf (qval f) 1 0 * ⟪g 0⟫ + dcmOf (qval f) 1 1 * ⟪g 1⟫ + dcmOf (qval f) 1 2 * ⟪g 2⟫)
      (dcmOf (qval f) 2 0 * ⟪g 0⟫ + dcmOf (qval f) 2 1 * ⟪g 1⟫ + dcmOf (qval f) 2 2 * ⟪g 2⟫)
    rw [← e5, d1] at n3
    have n4 := norm_add_le (mkQ 0 ⟪sumUp 3 fun j => D 0 j *ᶠ g j⟫ ⟪sumUp 3 fun j => D 1 j *ᶠ g j⟫ ⟪sumUp 3 fun j => D 2 j *ᶠ g j⟫ -
      (qval f * mkQ 0 ⟪g 0⟫ ⟪g 1⟫ ⟪g 2⟫ * star (qval f) + (1 - ‖qval f‖ ^ 2) • mkQ 0 0 ⟪g 1⟫ ⟪g 2⟫))
      ((1 - ‖qval f‖ ^ 2) • mkQ 0 0 ⟪g 1⟫ ⟪g 2⟫)
    rw [sub_add_eq_sub_sub, sub_add_cancel] at n4
    have h0 := norm_nonneg (mkQ 0 ⟪g 0⟫ ⟪g 1⟫ ⟪g 2⟫)
    refine le_trans n4 ?_
    rw [sub_add_eq_sub_sub] at n3
    rw [hη'] at n3
    norm_num at n3 d2 ⊢
    linarith


/-! ### Concrete cases -/

/-- A third of a turn about the diagonal permutes the components, exactly; with 3/5 and 4/5, which are not
representable, the result is not the nearest to the exact one. -/
example : (Quat.rotate (fvec [1 / 2, 1 / 2, 1 / 2, 1 / 2]) (fvec [1, 2, 3]) >>= fun v => .ok (contents 3 (.ok (), v))) =
    .ok [lit 3, lit 1, lit 2] := by decide +kernel
example : contents 3 (Quat.rotateInPlace (fvec [3 / 5, 4 / 5, 0, 0]) (fvec [0, 1, 0])) ≠ [lit 0, lit (-7 / 25), lit (24 / 25)] := by
  decide +kernel

/-- The hypotheses of `C88_dcm` and `C88_rotate` hold for it. -/
example : ∃ m r r' D h, Quat.convertToDcm (fvec [1 / 2, 1 / 2, 1 / 2, 1 / 2]) = .ok m ∧ MatIs m 3 3 D ∧
    |⟪D 1 0⟫ - 1| ≤ 18 / 2 ^ 24 ∧
    Quat.rotate (fvec [1 / 2, 1 / 2, 1 / 2, 1 / 2]) (fvec [1, 2, 3]) = .ok r ∧
    Quat.rotateInPlace (fvec [1 / 2, 1 / 2, 1 / 2, 1 / 2]) (fvec [1, 2, 3]) = (.ok (), r') ∧ VecIs r 3 h ∧ VecIs r' 3 h ∧
    ‖vval h - mkQ 0 3 1 2‖ ≤ 1 / 10 ^ 4 := by
  have q1 : qval (fun i => (lit (([1 / 2, 1 / 2, 1 / 2, 1 / 2] : List ℚ).getD i 0) : F32)) =
      mkQ (1 / 2) (1 / 2) (1 / 2) (1 / 2) := by
    unfold qval
    simp only [List.getD_cons_zero, List.getD_cons_succ]
    rw [val_lit (k := 1 / 2) (by decide +kernel)]
    norm_num
  have v1 : vval (fun i => (lit (([1, 2, 3] : List ℚ).getD i 0) : F32)) = mkQ 0 1 2 3 := by
    unfold vval
    simp only [List.getD_cons_zero, List.getD_cons_succ]
    rw [val_lit (k := 1) (by decide +kernel), val_lit (k := 2) (by decide +kernel), val_lit (k := 3) (by decide +kernel)]
    norm_num
  have ha : VecIs (fvec [1 / 2, 1 / 2, 1 / 2, 1 / 2]) 4 _ :=
    Vec.of_is (fun i => (lit (([1 / 2, 1 / 2, 1 / 2, 1 / 2] : List ℚ).getD i 0) : F32)) (by decide) (by decide)
  have hb : VecIs (fvec [1, 2, 3]) 3 _ := Vec.of_is (fun i => (lit (([1, 2, 3] : List ℚ).getD i 0) : F32)) (by decide) (by decide)
  have hf : ∀ i, i < 4 → Finite (lit (([1 / 2, 1 / 2, 1 / 2, 1 / 2] : List ℚ).getD i 0) : F32) := by decide +kernel
  have hg : ∀ i, i < 3 → Finite (lit (([1, 2, 3] : List ℚ).getD i 0) : F32) := by decide +kernel
  have n1 : ‖mkQ (1 / 2 : ℝ) (1 / 2) (1 / 2) (1 / 2)‖ = 1 := by rw [norm_mkQ]; norm_num
  have n2 : ‖mkQ (0 : ℝ) 1 2 3‖ ≤ 4 := by
    rw [norm_mkQ]
    exact Real.sqrt_le_iff.mpr ⟨by norm_num, by norm_num⟩
  obtain ⟨m, D, h1, h2, h3⟩ := C88_dcm ha hf (by rw [q1, n1]; norm_num)
  obtain ⟨r, r', h, k1, k2, k3, k4, -, k5⟩ := C88_rotate ha hf (by unfold NearUnit; rw [q1, n1]; norm_num) hb hg (by
    rw [v1]
    exact n2.trans (by norm_num))
  rw [q1, v1] at k5
  have e : mkQ (1 / 2 : ℝ) (1 / 2) (1 / 2) (1 / 2) * mkQ 0 1 2 3 * star (mkQ (1 / 2) (1 / 2) (1 / 2) (1 / 2)) = mkQ 0 3 1 2 := by
    apply Quaternion.ext <;> simp [Quaternion.re_mul, Quaternion.imI_mul, Quaternion.imJ_mul, Quaternion.imK_mul] <;> norm_num
  rw [e] at k5
  refine ⟨m, r, r', D, h, h1, h2, ?_, k1, k2, k3, k4, k5.trans ?_⟩
  · have h4 := (h3 1 0 (by omega) (by omega)).2
    rw [q1, n1] at h4
    have e2 : dcmOf (mkQ (1 / 2 : ℝ) (1 / 2) (1 / 2) (1 / 2)) 1 0 = 1 := by simp [dcmOf, tbl]; norm_num
    rw [e2] at h4
    refine h4.trans (le_of_eq ?_)
    norm_num
  · norm_num
    linarith

end Verif
