import Mathlib.Analysis.SpecialFunctions.Trigonometric.Bounds
import Verif.Props.RoundedAr
import Verif.Props.RoundedSensors

/-
The closed form of the AR filter in binary32, compared with the exact rotation (C82).
-/

set_option linter.unusedSectionVars false

namespace Verif
open Scalar Finset

/-- What is assumed of `sinf` and `cosf`: finite results within `2⁻²²` of the exact ones, four times the
spacing of the numbers below 1. -/
class Trig (F : Type) [Scalar F] [Rounded F] : Prop where
  cos_finite : ∀ {x : F}, Finite x → Finite (Scalar.cos x)
  sin_finite : ∀ {x : F}, Finite x → Finite (Scalar.sin x)
  cos_near : ∀ {x : F}, Finite x → |⟪Scalar.cos x⟫ - Real.cos ⟪x⟫| ≤ 1 / 2 ^ 22
  sin_near : ∀ {x : F}, Finite x → |⟪Scalar.sin x⟫ - Real.sin ⟪x⟫| ≤ 1 / 2 ^ 22

variable {F : Type} [Scalar F] [R : Rounded F]

/-- A bound for a sum from a bound for the first term and the distance. -/
theorem le_of_dist {x y a b : ℝ} (h1 : |y| ≤ a) (h2 : |x - y| ≤ b) : |x| ≤ a + b := by
  have := abs_sub_abs_le_abs_sub x y
  linarith

theorem dist_trans {x y z a b : ℝ} (h1 : |x - y| ≤ a) (h2 : |y - z| ≤ b) : |x - z| ≤ a + b :=
  (abs_sub_le x y z).trans (add_le_add h1 h2)

/-- The half angle. -/
theorem theta_acc {n t : F} {N : ℝ} (hn : Finite n) (ht : Finite t) (hN : 0 ≤ N)
    (h : |⟪n⟫ - N| ≤ 10 / 2 ^ 24 * N) (hb : N * |⟪t⟫| ≤ 2000) :
    Finite (n *ᶠ t /ᶠ lit 2) ∧
      |⟪n *ᶠ t /ᶠ lit 2⟫ - N * ⟪t⟫ / 2| ≤ 13 / 2 ^ 24 * (N * |⟪t⟫| / 2) + 2 * rη := by
  have hη := rη_pos
  have hη' := rη_le
  have h1 : |⟪n⟫ * ⟪t⟫ - N * ⟪t⟫| ≤ 10 / 2 ^ 24 * (N * |⟪t⟫|) := by
    rw [← sub_mul, abs_mul, ← mul_assoc]
    gcongr
  have hX : |N * ⟪t⟫| = N * |⟪t⟫| := by rw [abs_mul, abs_of_nonneg hN]
  have h2 := le_of_dist (le_of_eq hX) h1
  have hX0 : 0 ≤ N * |⟪t⟫| := by positivity
  generalize hXd : N * |⟪t⟫| = X at *
  have f1 : Finite (n *ᶠ t) := R.mul_finite hn ht (by
    norm_num at h2 ⊢
    linarith)
  have h3 := (R.mul_near hn ht f1).bound
  have h4 := le_of_dist h2 h3
  have v2 : ⟪(lit 2 : F)⟫ ≠ 0 := by rw [R.two_val]; norm_num
  have h5 : |⟪n *ᶠ t⟫ / 2| = |⟪n *ᶠ t⟫| / 2 := by rw [abs_div]; norm_num
  have f2 : Finite (n *ᶠ t /ᶠ lit 2) := R.div_finite f1 R.two_finite v2 (by
    rw [R.two_val, h5]
    norm_num at h2 h4 hη' ⊢
    linarith)
  have h6 := (R.div_near f1 R.two_finite v2 f2).bound
  rw [R.two_val, h5] at h6
  refine ⟨f2, ?_⟩
  have h7 : |⟪n *ᶠ t⟫ / 2 - N * ⟪t⟫ / 2| = |⟪n *ᶠ t⟫ - N * ⟪t⟫| / 2 := by
    rw [← sub_div, abs_div]; norm_num
  have h8 := dist_trans h3 h1
  have h9 := dist_trans h6 (le_of_eq h7)
  norm_num at h1 h2 h3 h4 h6 h8 h9 hη' ⊢
  linarith

/-- The argument of the trigonometric functions may be perturbed. -/
theorem cos_acc [T : Trig F] {x : F} (hx : Finite x) {X d : ℝ} (h : |⟪x⟫ - X| ≤ d) :
    |⟪Scalar.cos x⟫ - Real.cos X| ≤ 1 / 2 ^ 22 + d :=
  dist_trans (T.cos_near hx) ((Real.abs_cos_sub_cos_le _ _).trans h)

theorem sin_acc [T : Trig F] {x : F} (hx : Finite x) {X d : ℝ} (h : |⟪x⟫ - X| ≤ d) :
    |⟪Scalar.sin x⟫ - Real.sin X| ≤ 1 / 2 ^ 22 + d :=
  dist_trans (T.sin_near hx) ((Real.abs_sin_sub_sin_le _ _).trans h)

/-- An off-diagonal term: a rate component times the quotient of sine and norm. -/
theorem entry_acc {x n s : F} {N S d : ℝ} (hx : Finite x) (hn : Finite n) (hs : Finite s)
    (hN : 1 / 10 ^ 5 ≤ N) (hN' : N ≤ 2 ^ 63) (hxN : |⟪x⟫| ≤ N) (h : |⟪n⟫ - N| ≤ 10 / 2 ^ 24 * N)
    (hS : |S| ≤ 1) (hsS : |⟪s⟫ - S| ≤ d) (hd : d ≤ 1 / 1000) :
    Finite (s /ᶠ n) ∧ Finite (x *ᶠ (s /ᶠ n)) ∧
      |⟪x *ᶠ (s /ᶠ n)⟫ - ⟪x⟫ * (S / N)| ≤ 1001 / 1000 * d + 125 / 10 / 2 ^ 24 := by
  have hη := rη_pos
  have hη' := rη_le
  have hd0 : 0 ≤ d := (abs_nonneg _).trans hsS
  have hN0 : 0 < N := lt_of_lt_of_le (by norm_num) hN
  have n1 : 999999 / 1000000 * N ≤ ⟪n⟫ := by
    have := (abs_le.mp h).1
    norm_num at this ⊢
    linarith
  have n0 : 0 < ⟪n⟫ := lt_of_lt_of_le (by positivity) n1
  have n2 : 9 / 10 ^ 6 ≤ ⟪n⟫ := by
    norm_num at hN n1 ⊢
    linarith
  -- the quotient of the component and the norm
  have hq : |⟪x⟫ / ⟪n⟫| ≤ 1000002 / 1000000 := by
    rw [abs_div, abs_of_pos n0, div_le_iff₀ n0]
    linarith
  have hr : |⟪n⟫ / N - 1| ≤ 10 / 2 ^ 24 := by
    rw [div_sub_one hN0.ne', abs_div, abs_of_pos hN0, div_le_iff₀ hN0]
    exact h
  have hs1 := le_of_dist hS hsS
  -- the division
  have a1 : |⟪s⟫ / ⟪n⟫| ≤ (1 + d) / ⟪n⟫ := by
    rw [abs_div, abs_of_pos n0]
    gcongr
  have a2 : (1 + d) / ⟪n⟫ ≤ 2 * 10 ^ 6 := by
    rw [div_le_iff₀ n0]
    norm_num at n2 ⊢
    linarith
  have f1 : Finite (s /ᶠ n) := R.div_finite hs hn n0.ne' (by
    refine (a1.trans a2).trans ?_
    norm_num)
  have h1 := (R.div_near hs hn n0.ne' f1).bound
  -- times the component
  have h2 : |⟪x⟫ * ⟪s /ᶠ n⟫ - ⟪x⟫ / ⟪n⟫ * ⟪s⟫| ≤ |⟪x⟫ / ⟪n⟫| * |⟪s⟫| / 16777216 + 1 / 10 ^ 20 := by
    rw [show ⟪x⟫ * ⟪s /ᶠ n⟫ - ⟪x⟫ / ⟪n⟫ * ⟪s⟫ = ⟪x⟫ * (⟪s /ᶠ n⟫ - ⟪s⟫ / ⟪n⟫) by ring, abs_mul]
    calc |⟪x⟫| * |⟪s /ᶠ n⟫ - ⟪s⟫ / ⟪n⟫| ≤ |⟪x⟫| * (|⟪s⟫ / ⟪n⟫| / 16777216 + rη) := by gcongr
      _ = |⟪x⟫ / ⟪n⟫| * |⟪s⟫| / 16777216 + |⟪x⟫| * rη := by rw [abs_div, abs_div]; ring
      _ ≤ |⟪x⟫ / ⟪n⟫| * |⟪s⟫| / 16777216 + 1 / 10 ^ 20 := by
        gcongr
        calc |⟪x⟫| * rη ≤ 2 ^ 63 * (1 / 10 ^ 45) := by
              gcongr
              exact hxN.trans hN'
          _ ≤ _ := by norm_num
  have h3 : |⟪x⟫ / ⟪n⟫ * ⟪s⟫ - ⟪x⟫ * (S / N)| ≤ 1000002 / 1000000 * (d + 10 / 2 ^ 24) := by
    rw [show ⟪x⟫ / ⟪n⟫ * ⟪s⟫ - ⟪x⟫ * (S / N) = ⟪x⟫ / ⟪n⟫ * ((⟪s⟫ - S) + -(S * (⟪n⟫ / N - 1))) by
      field_simp
      ring, abs_mul]
    have : |(⟪s⟫ - S) + -(S * (⟪n⟫ / N - 1))| ≤ d + 10 / 2 ^ 24 := by
      refine (abs_add_le _ _).trans (add_le_add hsS ?_)
      rw [abs_neg, abs_mul]
      calc |S| * |⟪n⟫ / N - 1| ≤ 1 * (10 / 2 ^ 24) := by gcongr
        _ = _ := one_mul _
    gcongr
  have h4 : |⟪x⟫ / ⟪n⟫| * |⟪s⟫| ≤ 1000002 / 1000000 * (1 + d) := by gcongr
  have h5 := dist_trans h2 h3
  have h6 : |⟪x⟫ * (S / N)| ≤ 1 := by
    rw [abs_mul, abs_div, abs_of_pos hN0, ← mul_div_assoc, div_le_one hN0]
    calc |⟪x⟫| * |S| ≤ N * 1 := by gcongr
      _ = N := mul_one _
  have h7 := le_of_dist h6 h5
  have f2 : Finite (x *ᶠ (s /ᶠ n)) := R.mul_finite hx f1 (by
    norm_num at h7 h4 hd ⊢
    linarith)
  have h8 := (R.mul_near hx f1 f2).bound
  refine ⟨f1, f2, (dist_trans h8 h5).trans ?_⟩
  norm_num at h7 h4 hd hη' ⊢
  linarith

/-- An entry of the matrix `cos θ · 1 + (sin θ / n) Ω`. -/
theorem cell_acc {i x c n s : F} {N C S d : ℝ} (hi : Finite i) (hx : Finite x) (hc : Finite c) (hn : Finite n)
    (hs : Finite s) (hcase : ⟪i⟫ = 1 ∧ ⟪x⟫ = 0 ∨ ⟪i⟫ = 0)
    (hN : 1 / 10 ^ 5 ≤ N) (hN' : N ≤ 2 ^ 63) (hxN : |⟪x⟫| ≤ N) (h : |⟪n⟫ - N| ≤ 10 / 2 ^ 24 * N)
    (hC : |C| ≤ 1) (hcC : |⟪c⟫ - C| ≤ d)
    (hS : |S| ≤ 1) (hsS : |⟪s⟫ - S| ≤ d) (hd : d ≤ 1 / 1000) :
    Finite (i *ᶠ c) ∧ Finite (s /ᶠ n) ∧ Finite (x *ᶠ (s /ᶠ n)) ∧ Finite (i *ᶠ c +ᶠ x *ᶠ (s /ᶠ n)) ∧
      |⟪i *ᶠ c +ᶠ x *ᶠ (s /ᶠ n)⟫ - (⟪i⟫ * C + ⟪x⟫ * (S / N))| ≤ 1001 / 1000 * d + 14 / 2 ^ 24 := by
  have hη := rη_pos
  have hη' := rη_le
  have hd0 : 0 ≤ d := (abs_nonneg _).trans hsS
  obtain ⟨f1, f2, h1⟩ := entry_acc hx hn hs hN hN' hxN h hS hsS hd
  have hc1 := le_of_dist hC hcC
  have hi1 : |⟪i⟫| ≤ 1 := by rcases hcase with ⟨e, -⟩ | e <;> rw [e] <;> norm_num
  have hic : |⟪i⟫ * ⟪c⟫| ≤ 1 + d := by
    rw [abs_mul]
    calc |⟪i⟫| * |⟪c⟫| ≤ 1 * (1 + d) := by gcongr
      _ = _ := one_mul _
  have f3 : Finite (i *ᶠ c) := R.mul_finite hi hc (by
    norm_num at hic hd ⊢
    linarith)
  have h2 := (R.mul_near hi hc f3).bound
  have hN0 : 0 < N := lt_of_lt_of_le (by norm_num) hN
  have h6 : |⟪x⟫ * (S / N)| ≤ 1 := by
    rw [abs_mul, abs_div, abs_of_pos hN0, ← mul_div_assoc, div_le_one hN0]
    calc |⟪x⟫| * |S| ≤ N * 1 := by gcongr
      _ = N := mul_one _
  have h7 := le_of_dist h6 h1
  have h8 := le_of_dist hic h2
  have h9 := abs_add_le ⟪i *ᶠ c⟫ ⟪x *ᶠ (s /ᶠ n)⟫
  have f4 : Finite (i *ᶠ c +ᶠ x *ᶠ (s /ᶠ n)) := R.add_finite f3 f2 (by
    norm_num at hd hic h7 h8 h9 hη' ⊢
    linarith)
  have h10 := (R.add_near f3 f2 f4).bound
  refine ⟨f3, f1, f2, f4, ?_⟩
  rcases hcase with ⟨e1, e2⟩ | e1
  · -- on the diagonal
    have m := (R.mul_near hx f1 f2).bound
    rw [e2, zero_mul, abs_zero, sub_zero] at m
    rw [e1, one_mul] at h2
    rw [e1, e2, one_mul, zero_mul, add_zero]
    have t1 := abs_add_le ⟪i *ᶠ c⟫ ⟪x *ᶠ (s /ᶠ n)⟫
    have t2 : |⟪i *ᶠ c⟫ + ⟪x *ᶠ (s /ᶠ n)⟫ - ⟪i *ᶠ c⟫| ≤ rη := by
      rw [add_sub_cancel_left]
      linarith
    refine (dist_trans h10 (dist_trans t2 (dist_trans h2 hcC))).trans ?_
    norm_num at hd hic h7 h8 h9 hη' hc1 ⊢
    linarith
  · -- elsewhere
    rw [e1, zero_mul, abs_zero, sub_zero] at h2
    rw [e1, zero_mul, zero_add]
    have t2 : |⟪i *ᶠ c⟫ + ⟪x *ᶠ (s /ᶠ n)⟫ - ⟪x *ᶠ (s /ᶠ n)⟫| ≤ rη := by
      rw [add_sub_cancel_right]
      linarith
    refine (dist_trans h10 (dist_trans t2 h1)).trans ?_
    norm_num at hd hic h7 h8 h9 hη' hc1 h2 ⊢
    linarith

/-- A row of a nearly orthogonal matrix times a quaternion. -/
theorem row_acc {a f : Nat → F} {m : Nat → ℝ} {e : ℝ} (ha : ∀ j, j < 4 → Finite (a j))
    (hf : ∀ j, j < 4 → Finite (f j)) (hm : m 0 ^ 2 + m 1 ^ 2 + m 2 ^ 2 + m 3 ^ 2 = 1)
    (he : ∀ j, j < 4 → |⟪a j⟫ - m j| ≤ e) (he' : e ≤ 1 / 500) (hq : ‖qval f‖ ≤ 2) :
    (∀ k, k ≤ 4 → Finite (sumUp k fun j => a j *ᶠ f j)) ∧
      |⟪sumUp 4 fun j => a j *ᶠ f j⟫ - (m 0 * ⟪f 0⟫ + m 1 * ⟪f 1⟫ + m 2 * ⟪f 2⟫ + m 3 * ⟪f 3⟫)| ≤
        (2 * e + 121 / 10 / 2 ^ 24) * ‖qval f‖ + 12 * rη := by
  have hη := rη_pos
  have hη' := rη_le
  have nf : ‖qval f‖ = √(⟪f 0⟫ ^ 2 + ⟪f 1⟫ ^ 2 + ⟪f 2⟫ ^ 2 + ⟪f 3⟫ ^ 2) := norm_mkQ ..
  have he0 : 0 ≤ e := (abs_nonneg _).trans (he 0 (by omega))
  have hn0 := norm_nonneg (qval f)
  have c1 := cauchy4 (m 0) (m 1) (m 2) (m 3) ⟪f 0⟫ ⟪f 1⟫ ⟪f 2⟫ ⟪f 3⟫
  rw [hm, Real.sqrt_one, one_mul, ← nf] at c1
  have c2 := cauchy4 1 1 1 1 ⟪f 0⟫ ⟪f 1⟫ ⟪f 2⟫ ⟪f 3⟫
  rw [← nf, show (1 : ℝ) ^ 2 + 1 ^ 2 + 1 ^ 2 + 1 ^ 2 = 2 ^ 2 by norm_num, Real.sqrt_sq (by norm_num)] at c2
  simp only [one_mul] at c2
  have d : ∀ j, j < 4 → |⟪a j⟫ * ⟪f j⟫ - m j * ⟪f j⟫| ≤ e * |⟪f j⟫| := fun j hj => by
    rw [← sub_mul, abs_mul]
    have := he j hj
    gcongr
  have d0 := d 0 (by omega)
  have d1 := d 1 (by omega)
  have d2 := d 2 (by omega)
  have d3 := d 3 (by omega)
  have s0 := le_of_dist le_rfl d0
  have s1 := le_of_dist le_rfl d1
  have s2 := le_of_dist le_rfl d2
  have s3 := le_of_dist le_rfl d3
  have hef : e * (|⟪f 0⟫| + |⟪f 1⟫| + |⟪f 2⟫| + |⟪f 3⟫|) ≤ e * (2 * ‖qval f‖) := by gcongr
  have hen : e * ‖qval f‖ ≤ 1 / 500 * ‖qval f‖ := by gcongr
  have hsum : ∑ j ∈ range 4, |⟪a j⟫ * ⟪f j⟫| ≤ 1004 / 1000 * ‖qval f‖ := by
    simp only [Finset.sum_range_succ, Finset.sum_range_zero, zero_add]
    linarith
  have key := dot_acc (n := 4) le_rfl ha hf (hsum.trans (by
    norm_num at hq ⊢
    linarith))
  refine ⟨fun k hk => (key k hk).1, ?_⟩
  have k4 := (key 4 le_rfl).2
  have hu : ru = 1 / 16777216 := by unfold ru; norm_num
  have e1 : |∑ j ∈ range 4, ⟪a j⟫ * ⟪f j⟫ - (m 0 * ⟪f 0⟫ + m 1 * ⟪f 1⟫ + m 2 * ⟪f 2⟫ + m 3 * ⟪f 3⟫)| ≤
      2 * e * ‖qval f‖ := by
    simp only [Finset.sum_range_succ, Finset.sum_range_zero, zero_add]
    rw [show ⟪a 0⟫ * ⟪f 0⟫ + ⟪a 1⟫ * ⟪f 1⟫ + ⟪a 2⟫ * ⟪f 2⟫ + ⟪a 3⟫ * ⟪f 3⟫ -
        (m 0 * ⟪f 0⟫ + m 1 * ⟪f 1⟫ + m 2 * ⟪f 2⟫ + m 3 * ⟪f 3⟫) =
        (⟪a 0⟫ * ⟪f 0⟫ - m 0 * ⟪f 0⟫) + (⟪a 1⟫ * ⟪f 1⟫ - m 1 * ⟪f 1⟫) + (⟪a 2⟫ * ⟪f 2⟫ - m 2 * ⟪f 2⟫) +
        (⟪a 3⟫ * ⟪f 3⟫ - m 3 * ⟪f 3⟫) by ring]
    refine (abs_add_le _ _).trans ?_
    refine (add_le_add (abs_add_three _ _ _) le_rfl).trans ?_
    linarith
  refine (dist_trans k4 e1).trans ?_
  rw [hu]
  push_cast
  norm_num only
  linarith

/-- The size of a quaternion from its components. -/
theorem norm_le_two {a : Quaternion ℝ} {e : ℝ} (h0 : |a.re| ≤ e) (h1 : |a.imI| ≤ e) (h2 : |a.imJ| ≤ e)
    (h3 : |a.imK| ≤ e) : ‖a‖ ≤ 2 * e := by
  have he : 0 ≤ e := (abs_nonneg _).trans h0
  rw [quat_norm, Quaternion.normSq_def']
  refine Real.sqrt_le_iff.mpr ⟨by positivity, ?_⟩
  have c0 := sq_le_sq' (abs_le.mp h0).1 (abs_le.mp h0).2
  have c1 := sq_le_sq' (abs_le.mp h1).1 (abs_le.mp h1).2
  have c2 := sq_le_sq' (abs_le.mp h2).1 (abs_le.mp h2).2
  have c3 := sq_le_sq' (abs_le.mp h3).1 (abs_le.mp h3).2
  nlinarith

/-- Normalising a perturbed vector. -/
theorem normalised_dist {x y : Quaternion ℝ} (hx : x ≠ 0) (hy : y ≠ 0) :
    ‖‖x‖⁻¹ • x - ‖y‖⁻¹ • y‖ ≤ 2 * ‖x - y‖ / ‖y‖ := by
  have hx' : 0 < ‖x‖ := norm_pos_iff.mpr hx
  have hy' : 0 < ‖y‖ := norm_pos_iff.mpr hy
  have e : ‖x‖⁻¹ • x - ‖y‖⁻¹ • y = ‖y‖⁻¹ • (x - y) + (‖x‖⁻¹ - ‖y‖⁻¹) • x := by
    rw [smul_sub, sub_smul]
    abel
  rw [e]
  have h1 : ‖‖y‖⁻¹ • (x - y)‖ = ‖x - y‖ / ‖y‖ := by
    rw [norm_smul, norm_inv, norm_norm, inv_mul_eq_div]
  have h2 : ‖(‖x‖⁻¹ - ‖y‖⁻¹) • x‖ ≤ ‖x - y‖ / ‖y‖ := by
    rw [norm_smul, Real.norm_eq_abs]
    have : |‖x‖⁻¹ - ‖y‖⁻¹| * ‖x‖ = |‖y‖ - ‖x‖| / ‖y‖ := by
      rw [show ‖x‖⁻¹ - ‖y‖⁻¹ = (‖y‖ - ‖x‖) / (‖x‖ * ‖y‖) by field_simp, abs_div, abs_of_pos (mul_pos hx' hy')]
      field_simp
    rw [this]
    gcongr
    rw [abs_sub_comm]
    exact abs_norm_sub_norm_le x y
  calc _ ≤ ‖‖y‖⁻¹ • (x - y)‖ + ‖(‖x‖⁻¹ - ‖y‖⁻¹) • x‖ := norm_add_le _ _
    _ ≤ ‖x - y‖ / ‖y‖ + ‖x - y‖ / ‖y‖ := by rw [h1]; gcongr
    _ = _ := by ring

namespace AR
variable {s s' : AR F} {f : Nat → F} {a : ARInit F} {gx gy gz p q r : F}

/-- Storing a quaternion of moderate size. -/
theorem Ready.store_unit (h : Ready s f) (q : F × F × F × F)
    (hq : Finite q.1 ∧ Finite q.2.1 ∧ Finite q.2.2.1 ∧ Finite q.2.2.2)
    (h1 : 10001 / 10 ^ 8 < ‖mkQ ⟪q.1⟫ ⟪q.2.1⟫ ⟪q.2.2.1⟫ ⟪q.2.2.2⟫‖)
    (h2 : ‖mkQ ⟪q.1⟫ ⟪q.2.1⟫ ⟪q.2.2.1⟫ ⟪q.2.2.2⟫‖ ≤ 2 ^ 63) :
    ∃ g, (AR.store q s).1 = .ok () ∧ Ready (AR.store q s).2 g ∧ NearUnit g ∧
      ‖qval g - ‖mkQ ⟪q.1⟫ ⟪q.2.1⟫ ⟪q.2.2.1⟫ ⟪q.2.2.2⟫‖⁻¹ • mkQ ⟪q.1⟫ ⟪q.2.1⟫ ⟪q.2.2.1⟫ ⟪q.2.2.2⟫‖ ≤ 2 / 10 ^ 6 := by
  obtain ⟨w, e, hw⟩ := Quat.fillq_ok h.attitude hq.1 hq.2.1 hq.2.2.1 hq.2.2.2
  obtain ⟨v, g, e2, hv, hg, hc⟩ := C77_normalize hw (forall_lt_four.mpr hq)
  have e3 : AR.store q s = (.ok (), { s with attitude := v }) := by
    unfold AR.store
    rw [Op.bind_ok (onAttitude_ok e)]
    exact onAttitude_ok (s := { s with attitude := w }) e2
  have hn : norm2 4 (fun i => ⟪seq4 q.1 q.2.1 q.2.2.1 q.2.2.2 i⟫) = ‖mkQ ⟪q.1⟫ ⟪q.2.1⟫ ⟪q.2.2.1⟫ ⟪q.2.2.2⟫‖ :=
    (norm_qval (seq4 q.1 q.2.1 q.2.2.1 q.2.2.2)).symm
  rw [hn] at hc
  rw [e3]
  refine ⟨g, rfl, ⟨h.initialized, h.gyr_initialized, h.gyr, hv, hg⟩, ?_⟩
  rcases hc with ⟨-, hc | hc⟩ | ⟨c1, c2, -⟩
  · exact absurd h1 (not_lt.mpr hc)
  · exact absurd h2 (not_le.mpr hc)
  · refine ⟨by unfold NearUnit; rw [norm_qval]; exact c1, ?_⟩
    generalize ‖mkQ ⟪q.1⟫ ⟪q.2.1⟫ ⟪q.2.2.1⟫ ⟪q.2.2.2⟫‖ = N at *
    refine (norm_le_two (e := 1 / 10 ^ 6) ?_ ?_ ?_ ?_).trans (by norm_num)
    · simpa [qval, div_eq_inv_mul, seq4] using c2 0 (by omega)
    · simpa [qval, div_eq_inv_mul, seq4] using c2 1 (by omega)
    · simpa [qval, div_eq_inv_mul, seq4] using c2 2 (by omega)
    · simpa [qval, div_eq_inv_mul, seq4] using c2 3 (by omega)

/-- The exact matrix. -/
noncomputable def exactCell (C S N : ℝ) (p q r : F) (i j : Nat) : ℝ :=
  (if i = j then 1 else 0) * C + ⟪omegaEntry p q r i j⟫ * (S / N)

theorem exact_rows (hp : Finite p) (hq : Finite q) (hr : Finite r) {C S N : ℝ} (hN : 0 < N)
    (hn : N ^ 2 = ⟪p⟫ ^ 2 + ⟪q⟫ ^ 2 + ⟪r⟫ ^ 2) (hcs : C ^ 2 + S ^ 2 = 1) :
    (∀ i, i < 4 → exactCell C S N p q r i 0 ^ 2 + exactCell C S N p q r i 1 ^ 2 + exactCell C S N p q r i 2 ^ 2 +
      exactCell C S N p q r i 3 ^ 2 = 1) ∧
    ∀ x0 x1 x2 x3 : ℝ, ∀ M : Nat → ℝ,
      (∀ i, M i = exactCell C S N p q r i 0 * x0 + exactCell C S N p q r i 1 * x1 + exactCell C S N p q r i 2 * x2 +
        exactCell C S N p q r i 3 * x3) →
      mkQ (M 0) (M 1) (M 2) (M 3) =
        mkQ x0 x1 x2 x3 * mkQ C (⟪p⟫ * (S / N)) (⟪q⟫ * (S / N)) (⟪r⟫ * (S / N)) := by
  have e1 := R.neg_val hp
  have e2 := R.neg_val hq
  have e3 := R.neg_val hr
  have e0 := R.zero_val
  constructor
  · have k : C ^ 2 + (⟪p⟫ * (S / N)) ^ 2 + (⟪q⟫ * (S / N)) ^ 2 + (⟪r⟫ * (S / N)) ^ 2 = 1 := by
      have : (S / N) ^ 2 * N ^ 2 = S ^ 2 := by field_simp
      rw [hn] at this
      nlinarith
    refine forall_lt_four.mpr ⟨?_, ?_, ?_, ?_⟩ <;>
      simp only [exactCell, omegaEntry, seq4, e0, e1, e2, e3] <;> norm_num <;> rw [← k] <;> ring
  · intro x0 x1 x2 x3 M hM
    rw [hM, hM, hM, hM]
    simp only [exactCell, omegaEntry, seq4, e0, e1, e2, e3]
    ext <;> simp only [mkQ_re, mkQ_imI, mkQ_imJ, mkQ_imK, Quaternion.re_mul, Quaternion.imI_mul,
      Quaternion.imJ_mul, Quaternion.imK_mul] <;> norm_num <;> ring

/-- The new components of the closed form before normalisation. -/
theorem advance_acc [T : Trig F] {t : Mat F} {w att : Vec F} {ts n : F} {order : Nat}
    (ht : MatIs t 4 4 (fun i j => if i = j then lit 1 else lit 0)) (ha : VecIs att 4 f)
    (hf : ∀ i, i < 4 → Finite (f i)) (hp : Finite p) (hq : Finite q) (hr : Finite r) (hn : Finite n) (hts : Finite ts)
    {ω : Quaternion ℝ} (hω : ω = mkQ 0 ⟪p⟫ ⟪q⟫ ⟪r⟫) (hN : 1 / 10 ^ 5 ≤ ‖ω‖) (hN' : ‖ω‖ ≤ 2 ^ 63)
    (h : |⟪n⟫ - ‖ω‖| ≤ 10 / 2 ^ 24 * ‖ω‖) (hb : ‖ω‖ * |⟪ts⟫| ≤ 2000) (h2 : ‖qval f‖ ≤ 2) :
    ∃ x : F × F × F × F, advance t w att ts .ClosedForm order p q r n (f 0) (f 1) (f 2) (f 3) = .ok x ∧
      (Finite x.1 ∧ Finite x.2.1 ∧ Finite x.2.2.1 ∧ Finite x.2.2.2) ∧
      ‖mkQ ⟪x.1⟫ ⟪x.2.1⟫ ⟪x.2.2.1⟫ ⟪x.2.2.2⟫ - qval f * NormedSpace.exp ((⟪ts⟫ / 2) • ω)‖ ≤
        (97 / 2 ^ 24 + 521 / 10 / 2 ^ 24 * (‖ω‖ * |⟪ts⟫| / 2)) * ‖qval f‖ + 24 * rη := by
  have hη := rη_pos
  have hη' := rη_le
  have hN0 : 0 < ‖ω‖ := lt_of_lt_of_le (by norm_num) hN
  have hn2 : ‖ω‖ ^ 2 = ⟪p⟫ ^ 2 + ⟪q⟫ ^ 2 + ⟪r⟫ ^ 2 := by
    rw [hω, norm_mkQ, Real.sq_sqrt (by positivity)]
    ring
  obtain ⟨m, e1, hm⟩ := omega_ok hp hq hr (R.neg_finite hp) (R.neg_finite hq) (R.neg_finite hr)
  obtain ⟨ft, hth⟩ := theta_acc hn hts hN0.le h hb
  have hX0 : 0 ≤ ‖ω‖ * |⟪ts⟫| := by positivity
  generalize hXd : ‖ω‖ * |⟪ts⟫| = X at *
  set θ := n *ᶠ ts /ᶠ lit 2 with hθ
  have hcos := cos_acc ft hth
  have hsin := sin_acc ft hth
  set d : ℝ := 1 / 2 ^ 22 + (13 / 2 ^ 24 * (X / 2) + 2 * rη) with hd
  have hd' : d ≤ 1 / 1000 := by
    rw [hd]
    norm_num at hη' hb ⊢
    linarith
  have xN : ∀ {x : ℝ}, x ^ 2 ≤ ‖ω‖ ^ 2 → |x| ≤ ‖ω‖ := fun hx => abs_le_of_sq_le_sq hx hN0.le
  have bp := xN (x := ⟪p⟫) (by rw [hn2]; nlinarith [sq_nonneg ⟪q⟫, sq_nonneg ⟪r⟫])
  have bq := xN (x := ⟪q⟫) (by rw [hn2]; nlinarith [sq_nonneg ⟪p⟫, sq_nonneg ⟪r⟫])
  have br := xN (x := ⟪r⟫) (by rw [hn2]; nlinarith [sq_nonneg ⟪p⟫, sq_nonneg ⟪q⟫])
  have fo : ∀ i j, i < 4 → j < 4 → Finite (omegaEntry p q r i j) ∧ |⟪omegaEntry p q r i j⟫| ≤ ‖ω‖ ∧
      (i = j → ⟪omegaEntry p q r i j⟫ = 0) := by
    have a0 := R.zero_finite
    have a1 := R.neg_finite hp
    have a2 := R.neg_finite hq
    have a3 := R.neg_finite hr
    intro i j hi hj
    revert i
    refine forall_lt_four.mpr ?_
    revert j
    refine forall_lt_four.mpr ?_
    simp [omegaEntry, seq4, R.neg_val hp, R.neg_val hq, R.neg_val hr, R.zero_val, a0, a1, a2, a3, hp, hq, hr, bp, bq, br]
  have cell : ∀ i j, i < 4 → j < 4 → _ := fun i j hi hj =>
    cell_acc (i := (if i = j then lit 1 else lit 0 : F)) (x := omegaEntry p q r i j) (n := n)
      (c := Scalar.cos θ) (s := Scalar.sin θ) (N := ‖ω‖) (C := Real.cos (‖ω‖ * ⟪ts⟫ / 2))
      (S := Real.sin (‖ω‖ * ⟪ts⟫ / 2)) (d := d)
      (by split; exacts [R.one_finite, R.zero_finite]) (fo i j hi hj).1 (T.cos_finite ft) hn (T.sin_finite ft)
      (by
        split
        · rename_i hij
          exact .inl ⟨R.one_val, (fo i j hi hj).2.2 hij⟩
        · exact .inr R.zero_val)
      hN hN' (fo i j hi hj).2.1 h (Real.abs_cos_le_one _) hcos (Real.abs_sin_le_one _) hsin hd'
  obtain ⟨t1, e2, ht1⟩ := Mat.exec_of_stores (Mat.mulByScalarInPlace_stores ht) ht fun i j hi hj => (cell i j hi hj).1
  obtain ⟨m1, e3, hm1⟩ := Mat.exec_of_stores (Mat.mulByScalarInPlace_stores hm) hm fun i j hi hj =>
    (cell i j hi hj).2.2.1
  obtain ⟨t2, e4, ht2⟩ := Mat.exec_of_stores (Mat.addInPlace_stores ht1 hm1) ht1 fun i j hi hj =>
    (cell i j hi hj).2.2.2.1
  obtain ⟨v, e5, hv⟩ := Vec.convertToMatrix_ok ha hf
  obtain ⟨rows, exact⟩ := exact_rows (C := Real.cos (‖ω‖ * ⟪ts⟫ / 2)) (S := Real.sin (‖ω‖ * ⟪ts⟫ / 2)) hp hq hr hN0 hn2
    (Real.cos_sq_add_sin_sq _)
  have row : ∀ i, i < 4 → _ := fun i hi =>
    row_acc (a := fun j => (if i = j then lit 1 else lit 0 : F) *ᶠ Scalar.cos θ +ᶠ omegaEntry p q r i j *ᶠ (Scalar.sin θ /ᶠ n))
      (m := exactCell (Real.cos (‖ω‖ * ⟪ts⟫ / 2)) (Real.sin (‖ω‖ * ⟪ts⟫ / 2)) ‖ω‖ p q r i)
      (e := 1001 / 1000 * d + 14 / 2 ^ 24)
      (fun j hj => (cell i j hi hj).2.2.2.1) hf (rows i hi) (fun j hj => by
        have := (cell i j hi hj).2.2.2.2
        have e : ⟪(if i = j then lit 1 else lit 0 : F)⟫ = if i = j then 1 else 0 := by
          split
          · exact R.one_val
          · exact R.zero_val
        rw [e] at this
        exact this)
      (by norm_num at hd' ⊢; linarith) h2
  obtain ⟨y, e6, hy⟩ := Mat.mulNew_ok ht2 hv fun i j l hi hj hl => (row i hi).1 (l + 1) (by omega)
  let Y : Nat → F := fun i => sumUp 4 fun j =>
    ((if i = j then lit 1 else lit 0 : F) *ᶠ Scalar.cos θ +ᶠ omegaEntry p q r i j *ᶠ (Scalar.sin θ /ᶠ n)) *ᶠ f j
  refine ⟨(Y 0, Y 1, Y 2, Y 3), ?_, ⟨(row 0 (by omega)).1 4 le_rfl, (row 1 (by omega)).1 4 le_rfl, (row 2 (by omega)).1 4 le_rfl,
    (row 3 (by omega)).1 4 le_rfl⟩, ?_⟩
  · unfold advance matrixStep
    rw [e1]
    simp only [Res.mapErr_ok, Res.ok_bind, true_or, if_true, ← hθ, e2, e3, e4, e5, e6, hy.get 0 0 (by omega) (by omega),
      hy.get 1 0 (by omega) (by omega), hy.get 2 0 (by omega) (by omega), hy.get 3 0 (by omega) (by omega)]
    rfl
  · have hrot := rotation_eq (ω := ω) (by rw [hω, mkQ_re]) hN0.ne' ⟪ts⟫
    have hcomp : ω.imI = ⟪p⟫ ∧ ω.imJ = ⟪q⟫ ∧ ω.imK = ⟪r⟫ := by rw [hω]; exact ⟨rfl, rfl, rfl⟩
    rw [hcomp.1, hcomp.2.1, hcomp.2.2] at hrot
    rw [← hrot]
    unfold qval
    rw [← exact _ _ _ _ _ (fun i => rfl)]
    have hE : (97 / 2 ^ 24 + 521 / 10 / 2 ^ 24 * (X / 2)) * ‖qval f‖ + 24 * rη ≥
        2 * ((2 * (1001 / 1000 * d + 14 / 2 ^ 24) + 121 / 10 / 2 ^ 24) * ‖qval f‖ + 12 * rη) := by
      have : 2 * (2 * (1001 / 1000 * d + 14 / 2 ^ 24) + 121 / 10 / 2 ^ 24) ≤ 97 / 2 ^ 24 + 521 / 10 / 2 ^ 24 * (X / 2) := by
        rw [hd]
        norm_num at hη' ⊢
        linarith
      have := mul_le_mul_of_nonneg_right this (norm_nonneg (qval f))
      linarith
    refine le_trans ?_ hE
    refine norm_le_two ?_ ?_ ?_ ?_
    · exact (row 0 (by omega)).2
    · exact (row 1 (by omega)).2
    · exact (row 2 (by omega)).2
    · exact (row 3 (by omega)).2

end AR

/-- A gyrometer configured with `c` reads the sample `gx gy gz` as `p q r`. -/
def Gyrometer.Reads (c : GyrometerConfig F) (gx gy gz p q r : F) : Prop :=
  ∃ g g', Gyrometer.Reachable g ∧ getConfig g = .ok c ∧ update gx gy gz g = (.ok (), g') ∧
    getX g' = .ok p ∧ getY g' = .ok q ∧ getZ g' = .ok r

open Gyrometer in
/-- Every gyrometer with that configuration does. -/
theorem Gyrometer.Reads.all {c : GyrometerConfig F} {gx gy gz p q r : F} (h : Reads c gx gy gz p q r)
    {g : Gyrometer F} (hg : Gyrometer.Reachable g) (hc : getConfig g = .ok c) :
    ∃ g', update gx gy gz g = (.ok (), g') ∧ getX g' = .ok p ∧ getY g' = .ok q ∧ getZ g' = .ok r := by
  obtain ⟨g0, g0', h1, h2, h3, h4, h5, h6⟩ := h
  have h7 := (C43_gyr_iff hg hc).mpr ((C43_gyr_iff h1 h2).mp (congrArg Prod.fst h3))
  rcases e : update gx gy gz g with ⟨r1, g'⟩
  rw [e] at h7
  obtain rfl := h7
  obtain ⟨-, k1, k2, k3, -⟩ := C43_gyr_formula hg hc e
  obtain ⟨-, l1, l2, l3, -⟩ := C43_gyr_formula h1 h2 h3
  exact ⟨g', rfl, k1.trans (l1.symm.trans h4), k2.trans (l2.symm.trans h5), k3.trans (l3.symm.trans h6)⟩

namespace AR
variable {s s' : AR F} {f : Nat → F} {a : ARInit F} {gx gy gz p q r : F}

/-- An update in binary32: it fails or succeeds as the branch does. -/
theorem Ready.run (h : Ready s f) {c : GyrometerConfig F} (hc : Gyrometer.getConfig s.gyr = .ok c)
    (hr : Gyrometer.Reads c gx gy gz p q r) :
    ∃ g n t v w, Gyrometer.Reachable g ∧ g.initialized = true ∧ Gyrometer.getConfig g = .ok c ∧
      Finite p ∧ Finite q ∧ Finite r ∧ VecIs w 3 (seq3 p q r) ∧
      w.calculateNorm = .ok n ∧ MatIs t 4 4 (fun i j => if i = j then lit 1 else lit 0) ∧ VecIs v 3 (seq3 p q r) ∧
      AR.update gx gy gz s =
        if n >ᶠ EPSILON then
          ((liftM (advance t v s.attitude s.ts s.method s.order p q r n (f 0) (f 1) (f 2) (f 3)) :
            Op AhrsError (AR F) _) >>= AR.store) { s with gyr := g }
        else (.ok (), { s with gyr := g }) := by
  obtain ⟨g, hu, hx, hy, hz⟩ := hr.all h.gyr hc
  obtain ⟨h1, h2, p', q', r', n, w, hx', hy', hz', hp, hq, hr, hw, hn⟩ := h.readings hu
  obtain rfl := Except.ok.inj (hx.symm.trans hx')
  obtain rfl := Except.ok.inj (hy.symm.trans hy')
  obtain rfl := Except.ok.inj (hz.symm.trans hz')
  obtain ⟨t, v, ht, hv, e⟩ := h.update_run hu hx hy hz hp hq hr hw hn
  obtain ⟨-, -, -, -, hc'⟩ := C43_gyr_formula h.gyr hc hu
  exact ⟨g, n, t, v, w, h1, h2, hc', hp, hq, hr, hw, hn, ht, hv, e⟩

theorem norm_rate (p q r : F) : norm2 3 (fun i => ⟪seq3 p q r i⟫) = ‖mkQ 0 ⟪p⟫ ⟪q⟫ ⟪r⟫‖ := by
  rw [norm_mkQ, norm2]
  congr 1
  simp only [Finset.sum_range_succ, Finset.sum_range_zero, seq3, zero_add]
  ring

/-- What the closed form does in binary32. -/
theorem Ready.closed [T : Trig F] (h : Ready s f) (hm : s.method = .ClosedForm) (hts : Finite s.ts)
    {c : GyrometerConfig F} (hc : Gyrometer.getConfig s.gyr = .ok c) (hr : Gyrometer.Reads c gx gy gz p q r)
    (h1 : 1 / 2 ≤ ‖qval f‖) (h2 : ‖qval f‖ ≤ 2) (hN : ‖mkQ 0 ⟪p⟫ ⟪q⟫ ⟪r⟫‖ ≤ 2 ^ 63)
    (hb : ‖mkQ 0 ⟪p⟫ ⟪q⟫ ⟪r⟫‖ * |⟪s.ts⟫| ≤ 2000) :
    (AR.update gx gy gz s).1 = .ok () ∧
      ((AR.update gx gy gz s).2.attitude = s.attitude ∧ ‖mkQ 0 ⟪p⟫ ⟪q⟫ ⟪r⟫‖ ≤ 10001 / 10 ^ 8 ∨
       9999 / 10 ^ 8 ≤ ‖mkQ 0 ⟪p⟫ ⟪q⟫ ⟪r⟫‖ ∧ ∃ f', Ready (AR.update gx gy gz s).2 f' ∧ NearUnit f' ∧
        ‖qval f' - (‖qval f‖⁻¹ • qval f) * NormedSpace.exp ((⟪s.ts⟫ / 2) • mkQ 0 ⟪p⟫ ⟪q⟫ ⟪r⟫)‖ ≤
          14 / 10 ^ 6 + 63 / 10 ^ 7 * (‖mkQ 0 ⟪p⟫ ⟪q⟫ ⟪r⟫‖ * |⟪s.ts⟫| / 2)) := by
  obtain ⟨g, n, t, v, w, g1, g2, g3, hp, hq, hr, hw, hn, ht, hv, e⟩ := h.run hc hr
  obtain ⟨n', hn', fn, hcase⟩ := C77_norm hw (forall_lt_three.mpr ⟨hp, hq, hr⟩) (by rw [norm_rate]; exact hN)
  obtain rfl := Except.ok.inj (hn.symm.trans hn')
  rw [norm_rate] at hcase
  have heps := eps_bounds (F := F)
  rw [e]
  by_cases hmov : (n >ᶠ EPSILON) = true
  · have hgt := (R.lt_val eps_fin fn).mp hmov
    rw [if_pos hmov]
    rcases hcase with ⟨h0, -⟩ | ⟨hlo, hacc⟩
    · rw [h0] at hgt
      norm_num at heps
      linarith [heps.1]
    · generalize hωd : mkQ 0 ⟪p⟫ ⟪q⟫ ⟪r⟫ = ω at *
      obtain ⟨x, ex, hx, hxe⟩ := advance_acc (order := s.order) (w := v) ht h.attitude h.finite hp hq hr fn hts hωd.symm
        (by norm_num at hlo ⊢; linarith) hN hacc hb h2
      rw [← hm] at ex
      rw [Op.liftM_bind_run, ex]
      have hR := h.gyr_set g1 g2
      have hη' := rη_le
      have hη := rη_pos
      set X := qval f * NormedSpace.exp ((⟪s.ts⟫ / 2) • ω) with hX
      have hXn : ‖X‖ = ‖qval f‖ := by
        rw [hX, norm_mul, norm_rotation (by rw [← hωd, mkQ_re]), mul_one]
      generalize hxd : mkQ ⟪x.1⟫ ⟪x.2.1⟫ ⟪x.2.2.1⟫ ⟪x.2.2.2⟫ = x' at *
      have hX0 : 0 ≤ ‖ω‖ * |⟪s.ts⟫| := by positivity
      generalize ‖ω‖ * |⟪s.ts⟫| = K at *
      have small : ‖x' - X‖ ≤ 1 / 100 * ‖qval f‖ := by
        refine hxe.trans ?_
        have : 97 / 2 ^ 24 + 521 / 10 / 2 ^ 24 * (K / 2) ≤ 1 / 200 := by
          norm_num
          linarith
        have := mul_le_mul_of_nonneg_right this (norm_nonneg (qval f))
        norm_num at hη' this ⊢
        linarith
      have dn := abs_norm_sub_norm_le x' X
      rw [hXn] at dn
      have dn' := abs_le.mp (dn.trans small)
      have hx'n : 1 / 4 ≤ ‖x'‖ := by linarith [dn'.1]
      obtain ⟨f', k1, k2, k3, k4⟩ := hR.store_unit x hx (by
        rw [hxd]
        norm_num
        linarith) (by
        rw [hxd]
        norm_num
        linarith [dn'.2])
      rw [hxd] at k4
      refine ⟨k1, .inr ⟨hlo, f', k2, k3, ?_⟩⟩
      have nd := normalised_dist (x := x') (y := X) (norm_pos_iff.mp (by linarith)) (norm_pos_iff.mp (by
        rw [hXn]
        linarith))
      have eX : ‖X‖⁻¹ • X = (‖qval f‖⁻¹ • qval f) * NormedSpace.exp ((⟪s.ts⟫ / 2) • ω) := by
        rw [hXn, hX, smul_mul_assoc]
      rw [← eX]
      have hq0 : 0 < ‖qval f‖ := by linarith
      have nd2 : 2 * ‖x' - X‖ / ‖X‖ ≤ 2 * (97 / 2 ^ 24 + 521 / 10 / 2 ^ 24 * (K / 2)) + 100 * rη := by
        rw [hXn, div_le_iff₀ hq0]
        have : 50 * rη ≤ 100 * rη * ‖qval f‖ := by nlinarith
        linarith
      have := norm_sub_le_norm_sub_add_norm_sub (qval f') (‖x'‖⁻¹ • x') (‖X‖⁻¹ • X)
      norm_num at hη' this nd nd2 k4 ⊢
      linarith
  · rw [if_neg hmov]
    refine ⟨rfl, .inl ⟨rfl, ?_⟩⟩
    have hle : ⟪n⟫ ≤ ⟪(EPSILON : F)⟫ := not_lt.mp fun hc => hmov ((R.lt_val eps_fin fn).mpr hc)
    rcases hcase with ⟨-, h0⟩ | ⟨-, hacc⟩
    · exact h0
    · have := (abs_le.mp hacc).1
      norm_num at this heps ⊢
      linarith [heps.2]

end AR

open AR
variable {s s' : AR F} {a : ARInit F} {gx gy gz p q r : F}

/-- C82: one update of the closed form in binary32, from an attitude `A` of norm between 1/2 and 2, with a rate
between 1.0001e-4 and `2⁶³` that turns by at most 1000 half radians: it succeeds, and the new attitude is a unit
quaternion up to one in a million that differs from the exact rotation of `A / ‖A‖` by at most
`1.4e-5 + 6.3e-6 · ‖ω‖ |τ| / 2`. -/
theorem C82_step [Trig F] (hs : Started a s) (hm : a.method = .ClosedForm) (hts : Finite a.ts)
    {A : Quaternion ℝ} (hA : ShowsF s fun f => qval f = A) (h1 : 1 / 2 ≤ ‖A‖) (h2 : ‖A‖ ≤ 2)
    (hr : Gyrometer.Reads a.config gx gy gz p q r) {ω : Quaternion ℝ} (hω : ω = mkQ 0 ⟪p⟫ ⟪q⟫ ⟪r⟫)
    (hlo : 10001 / 10 ^ 8 < ‖ω‖) (hhi : ‖ω‖ ≤ 2 ^ 63) (hb : ‖ω‖ * |⟪a.ts⟫| ≤ 2000) :
    ∃ s', update gx gy gz s = (.ok (), s') ∧ ShowsF s' fun f => NearUnit f ∧
      ‖qval f - (‖A‖⁻¹ • A) * NormedSpace.exp ((⟪a.ts⟫ / 2) • ω)‖ ≤
        14 / 10 ^ 6 + 63 / 10 ^ 7 * (‖ω‖ * |⟪a.ts⟫| / 2) := by
  obtain ⟨⟨f, hf⟩, e1, e2, -, e4⟩ := hs.ready
  have hA' : qval f = A := hA.ready hf fun f g h hf => by
    rw [← hf]
    unfold qval
    rw [h 0 (by omega), h 1 (by omega), h 2 (by omega), h 3 (by omega)]
  subst hA' hω
  rw [← e1] at hb hts ⊢
  obtain ⟨k1, k2⟩ := hf.closed (e2.trans hm) hts e4 hr h1 h2 hhi hb
  refine ⟨(update gx gy gz s).2, Prod.ext k1 rfl, ?_⟩
  rcases k2 with ⟨-, k2⟩ | ⟨-, f', k2, k3, k4⟩
  · exact absurd hlo (not_lt.mpr k2)
  · exact k2.showsF ⟨k3, k4⟩

end Verif
