import Verif.Props.RoundedQuatInv
import Verif.Props.Dsp
import Verif.Props.TempDsp
import Verif.Props.TempDftRounded

/-
Complex numbers in binary32 (C121).
-/

set_option linter.unusedSectionVars false
set_option linter.unusedSimpArgs false
set_option linter.unusedVariables false

namespace Verif
open Scalar

section
variable {F : Type} [Scalar F] [R : Rounded F] {x₁ y₁ x₂ y₂ : F}

/-- The complex number with two components. -/
def cpx (x y : F) : ℂ := ⟨⟪x⟫, ⟪y⟫⟩

theorem cpx_norm_le {w : ℂ} {e : ℝ} (h1 : |w.re| ≤ e) (h2 : |w.im| ≤ e) : ‖w‖ ≤ 142 / 100 * e := by
  have e0 : 0 ≤ e := (abs_nonneg _).trans h1
  refine abs_le_of_sq_le_sq' ?_ (by positivity) |>.2
  rw [Complex.sq_norm, Complex.normSq_apply]
  have a1 := mul_self_le_mul_self (abs_nonneg _) h1
  have a2 := mul_self_le_mul_self (abs_nonneg _) h2
  rw [abs_mul_abs_self] at a1 a2
  nlinarith

theorem cpx_sq (x y : F) : ‖cpx x y‖ ^ 2 = ⟪x⟫ ^ 2 + ⟪y⟫ ^ 2 := by
  rw [Complex.sq_norm, Complex.normSq_apply]
  unfold cpx
  ring

theorem le_cpx (x y : F) : |⟪x⟫| ≤ ‖cpx x y‖ ∧ |⟪y⟫| ≤ ‖cpx x y‖ := 
  ⟨Complex.abs_re_le_norm (cpx x y), Complex.abs_im_le_norm (cpx x y)⟩

theorem sum_sq_le {a b c d A B : ℝ} (hA : A ^ 2 = a ^ 2 + b ^ 2) (hB : B ^ 2 = c ^ 2 + d ^ 2) (A0 : 0 ≤ A) (B0 : 0 ≤ B) :
    |a * c| + |b * d| ≤ A * B := by
  have h : (|a| * |c| + |b| * |d|) ^ 2 ≤ (A * B) ^ 2 := by
    rw [mul_pow, hA, hB, ← sq_abs a, ← sq_abs b, ← sq_abs c, ← sq_abs d]
    nlinarith [sq_nonneg (|a| * |d| - |b| * |c|)]
  rw [abs_mul, abs_mul]
  exact (abs_le_of_sq_le_sq' h (by positivity)).2

theorem prod_apx {x y : F} (hx : Finite x) (hy : Finite y) {M : ℝ} (h : |⟪x⟫ * ⟪y⟫| ≤ M) (hM : M ≤ 2 ^ 126) :
    Apx (x *ᶠ y) (⟪x⟫ * ⟪y⟫) (|⟪x⟫ * ⟪y⟫| / 16777216 + rη) := by
  have f : Finite (x *ᶠ y) := R.mul_finite hx hy (h.trans (hM.trans (by norm_num)))
  exact ⟨f, (R.mul_near hx hy f).bound⟩

/-- Two products added or subtracted. -/
theorem dot_apx (h1 : Finite x₁) (h2 : Finite y₁) (h3 : Finite x₂) (h4 : Finite y₂) {M : ℝ}
    (h : |⟪x₁⟫ * ⟪x₂⟫| + |⟪y₁⟫ * ⟪y₂⟫| ≤ M) (hM : M ≤ 2 ^ 126) :
    Apx (x₁ *ᶠ x₂ +ᶠ y₁ *ᶠ y₂) (⟪x₁⟫ * ⟪x₂⟫ + ⟪y₁⟫ * ⟪y₂⟫) (201 / 100 * M / 16777216 + 4 * rη) ∧
    Apx (x₁ *ᶠ x₂ -ᶠ y₁ *ᶠ y₂) (⟪x₁⟫ * ⟪x₂⟫ - ⟪y₁⟫ * ⟪y₂⟫) (201 / 100 * M / 16777216 + 4 * rη) := by
  have a1 := abs_nonneg (⟪x₁⟫ * ⟪x₂⟫)
  have a2 := abs_nonneg (⟪y₁⟫ * ⟪y₂⟫)
  have p := prod_apx h1 h3 (M := M) (by linarith) hM
  have q := prod_apx h2 h4 (M := M) (by linarith) hM
  generalize ⟪x₁⟫ * ⟪x₂⟫ = X at *
  generalize ⟪y₁⟫ * ⟪y₂⟫ = Y at *
  generalize x₁ *ᶠ x₂ = x at *
  generalize y₁ *ᶠ y₂ = y at *
  have hη := rη_le
  have hη0 := rη_pos
  have bX := abs_le.mp p.2
  have bY := abs_le.mp q.2
  have hX := abs_le.mp (le_refl |X|)
  have hY := abs_le.mp (le_refl |Y|)
  norm_num at hη hM
  have s1 : |⟪x⟫ + ⟪y⟫ - (X + Y)| ≤ M / 16777216 + 2 * rη := abs_le.mpr ⟨by linarith, by linarith⟩
  have s2 : |⟪x⟫ - ⟪y⟫ - (X - Y)| ≤ M / 16777216 + 2 * rη := abs_le.mpr ⟨by linarith, by linarith⟩
  have t1 : |⟪x⟫ + ⟪y⟫| ≤ M + (M / 16777216 + 2 * rη) := abs_le.mpr ⟨by linarith, by linarith⟩
  have t2 : |⟪x⟫ - ⟪y⟫| ≤ M + (M / 16777216 + 2 * rη) := abs_le.mpr ⟨by linarith, by linarith⟩
  have f1 : Finite (x +ᶠ y) := R.add_finite p.1 q.1 (t1.trans (by norm_num; linarith))
  have f2 : Finite (x -ᶠ y) := R.sub_finite p.1 q.1 (t2.trans (by norm_num; linarith))
  refine ⟨⟨f1, ?_⟩, ⟨f2, ?_⟩⟩
  · refine (dist_trans (R.add_near p.1 q.1 f1).bound s1).trans ?_
    linarith
  · refine (dist_trans (R.sub_near p.1 q.1 f2).bound s2).trans ?_
    linarith

theorem cpx_rel {a b X Y u e : ℝ} (u0 : 0 ≤ u) (e0 : 0 ≤ e) (ha : |a| ≤ u * |X| + e) (hb : |b| ≤ u * |Y| + e) :
    ‖(⟨a, b⟩ : ℂ)‖ ≤ u * ‖(⟨X, Y⟩ : ℂ)‖ + 2 * e := by
  refine abs_le_of_sq_le_sq' ?_ (by positivity) |>.2
  have hN : ‖(⟨X, Y⟩ : ℂ)‖ ^ 2 = X ^ 2 + Y ^ 2 := by rw [Complex.sq_norm, Complex.normSq_apply]; ring
  have hX : |X| ≤ ‖(⟨X, Y⟩ : ℂ)‖ := Complex.abs_re_le_norm (⟨X, Y⟩ : ℂ)
  have hY : |Y| ≤ ‖(⟨X, Y⟩ : ℂ)‖ := Complex.abs_im_le_norm (⟨X, Y⟩ : ℂ)
  rw [Complex.sq_norm, Complex.normSq_apply]
  have a1 := mul_self_le_mul_self (abs_nonneg _) ha
  have a2 := mul_self_le_mul_self (abs_nonneg _) hb
  rw [abs_mul_abs_self] at a1 a2
  generalize ‖(⟨X, Y⟩ : ℂ)‖ = N at *
  have h1 : a * a + b * b ≤ u ^ 2 * N ^ 2 + 2 * (u * e) * (|X| + |Y|) + 2 * e ^ 2 := by
    rw [hN, ← sq_abs X, ← sq_abs Y]
    linarith
  have h2 := mul_le_mul_of_nonneg_left (add_le_add hX hY) (mul_nonneg u0 e0)
  have h3 := sq_nonneg e
  show a * a + b * b ≤ _
  linarith

/-- The sum of complex numbers. -/
theorem cpx_add (h1 : Finite x₁) (h2 : Finite y₁) (h3 : Finite x₂) (h4 : Finite y₂)
    (hM : ‖cpx x₁ y₁ + cpx x₂ y₂‖ ≤ 2 ^ 127) :
    (Finite (x₁ +ᶠ x₂) ∧ Finite (y₁ +ᶠ y₂)) ∧
    ‖cpx (x₁ +ᶠ x₂) (y₁ +ᶠ y₂) - (cpx x₁ y₁ + cpx x₂ y₂)‖ ≤ ru * ‖cpx x₁ y₁ + cpx x₂ y₂‖ + 2 * rη := by
  have r1 : |⟪x₁⟫ + ⟪x₂⟫| ≤ _ := Complex.abs_re_le_norm (cpx x₁ y₁ + cpx x₂ y₂)
  have r2 : |⟪y₁⟫ + ⟪y₂⟫| ≤ _ := Complex.abs_im_le_norm (cpx x₁ y₁ + cpx x₂ y₂)
  have f1 : Finite (x₁ +ᶠ x₂) := R.add_finite h1 h3 (r1.trans hM)
  have f2 : Finite (y₁ +ᶠ y₂) := R.add_finite h2 h4 (r2.trans hM)
  exact ⟨⟨f1, f2⟩, cpx_rel ru_pos.le rη_pos.le (R.add_near h1 h3 f1) (R.add_near h2 h4 f2)⟩

/-- The difference of complex numbers. -/
theorem cpx_sub (h1 : Finite x₁) (h2 : Finite y₁) (h3 : Finite x₂) (h4 : Finite y₂)
    (hM : ‖cpx x₁ y₁ - cpx x₂ y₂‖ ≤ 2 ^ 127) :
    (Finite (x₁ -ᶠ x₂) ∧ Finite (y₁ -ᶠ y₂)) ∧
    ‖cpx (x₁ -ᶠ x₂) (y₁ -ᶠ y₂) - (cpx x₁ y₁ - cpx x₂ y₂)‖ ≤ ru * ‖cpx x₁ y₁ - cpx x₂ y₂‖ + 2 * rη := by
  have r1 : |⟪x₁⟫ - ⟪x₂⟫| ≤ _ := Complex.abs_re_le_norm (cpx x₁ y₁ - cpx x₂ y₂)
  have r2 : |⟪y₁⟫ - ⟪y₂⟫| ≤ _ := Complex.abs_im_le_norm (cpx x₁ y₁ - cpx x₂ y₂)
  have f1 : Finite (x₁ -ᶠ x₂) := R.sub_finite h1 h3 (r1.trans hM)
  have f2 : Finite (y₁ -ᶠ y₂) := R.sub_finite h2 h4 (r2.trans hM)
  exact ⟨⟨f1, f2⟩, cpx_rel ru_pos.le rη_pos.le (R.sub_near h1 h3 f1) (R.sub_near h2 h4 f2)⟩

/-- The product of complex numbers. -/
theorem cpx_mul (h1 : Finite x₁) (h2 : Finite y₁) (h3 : Finite x₂) (h4 : Finite y₂)
    (hM : ‖cpx x₁ y₁‖ * ‖cpx x₂ y₂‖ ≤ 2 ^ 126) :
    (Finite (x₁ *ᶠ x₂ -ᶠ y₁ *ᶠ y₂) ∧ Finite (x₁ *ᶠ y₂ +ᶠ y₁ *ᶠ x₂)) ∧
    ‖cpx (x₁ *ᶠ x₂ -ᶠ y₁ *ᶠ y₂) (x₁ *ᶠ y₂ +ᶠ y₁ *ᶠ x₂) - cpx x₁ y₁ * cpx x₂ y₂‖ ≤
      3 * ru * (‖cpx x₁ y₁‖ * ‖cpx x₂ y₂‖) + 6 * rη := by
  have hA := cpx_sq x₁ y₁
  have hB := cpx_sq x₂ y₂
  have A0 := norm_nonneg (cpx x₁ y₁)
  have B0 := norm_nonneg (cpx x₂ y₂)
  have r := (dot_apx h1 h2 h3 h4 (sum_sq_le hA hB A0 B0) hM).2
  have i := (dot_apx h1 h2 h4 h3 (sum_sq_le hA (hB.trans (add_comm _ _)) A0 B0) hM).1
  refine ⟨⟨r.1, i.1⟩, (cpx_norm_le (e := 201 / 100 * (‖cpx x₁ y₁‖ * ‖cpx x₂ y₂‖) / 16777216 + 4 * rη) ?_ ?_).trans ?_⟩
  · rw [Complex.sub_re, Complex.mul_re]; exact r.2
  · rw [Complex.sub_im, Complex.mul_im]; exact i.2
  · have := mul_nonneg A0 B0
    have := rη_pos
    unfold ru
    norm_num
    linarith

/-- The quotient of complex numbers. -/
theorem cpx_div (h1 : Finite x₁) (h2 : Finite y₁) (h3 : Finite x₂) (h4 : Finite y₂) (hA : ‖cpx x₁ y₁‖ ≤ 2 ^ 63)
    (hB : ‖cpx x₂ y₂‖ ≤ 2 ^ 63) (hB0 : 999 / 10 ^ 7 ≤ ‖cpx x₂ y₂‖) :
    (Finite ((x₁ *ᶠ x₂ +ᶠ y₁ *ᶠ y₂) /ᶠ (x₂ *ᶠ x₂ +ᶠ y₂ *ᶠ y₂)) ∧ Finite ((y₁ *ᶠ x₂ -ᶠ x₁ *ᶠ y₂) /ᶠ (x₂ *ᶠ x₂ +ᶠ y₂ *ᶠ y₂))) ∧
    ‖cpx ((x₁ *ᶠ x₂ +ᶠ y₁ *ᶠ y₂) /ᶠ (x₂ *ᶠ x₂ +ᶠ y₂ *ᶠ y₂)) ((y₁ *ᶠ x₂ -ᶠ x₁ *ᶠ y₂) /ᶠ (x₂ *ᶠ x₂ +ᶠ y₂ *ᶠ y₂)) -
        cpx x₁ y₁ / cpx x₂ y₂‖ ≤ 8 * ru * ‖cpx x₁ y₁ / cpx x₂ y₂‖ + 1 / 2 ^ 120 := by
  have hAs := cpx_sq x₁ y₁
  have hBs := cpx_sq x₂ y₂
  have A0 := norm_nonneg (cpx x₁ y₁)
  have B0 : 0 < ‖cpx x₂ y₂‖ := lt_of_lt_of_le (by norm_num) hB0
  have hre : (cpx x₁ y₁ / cpx x₂ y₂).re = (⟪x₁⟫ * ⟪x₂⟫ + ⟪y₁⟫ * ⟪y₂⟫) / (⟪x₂⟫ * ⟪x₂⟫ + ⟪y₂⟫ * ⟪y₂⟫) := by
    rw [Complex.div_re, Complex.normSq_apply, ← add_div]; rfl
  have him : (cpx x₁ y₁ / cpx x₂ y₂).im = (⟪y₁⟫ * ⟪x₂⟫ - ⟪x₁⟫ * ⟪y₂⟫) / (⟪x₂⟫ * ⟪x₂⟫ + ⟪y₂⟫ * ⟪y₂⟫) := by
    rw [Complex.div_im, Complex.normSq_apply, ← sub_div]; rfl
  have c1 := Complex.abs_re_le_norm (cpx x₁ y₁ / cpx x₂ y₂)
  have c2 := Complex.abs_im_le_norm (cpx x₁ y₁ / cpx x₂ y₂)
  rw [hre] at c1
  rw [him] at c2
  have hAB : ‖cpx x₁ y₁‖ * ‖cpx x₂ y₂‖ ≤ 2 ^ 126 :=
    (mul_le_mul hA hB B0.le (by norm_num)).trans (by norm_num)
  have hBB : ‖cpx x₂ y₂‖ * ‖cpx x₂ y₂‖ ≤ 2 ^ 126 := (mul_le_mul hB hB B0.le (by norm_num)).trans (by norm_num)
  have n1 := (dot_apx h1 h2 h3 h4 (sum_sq_le hAs hBs A0 B0.le) hAB).1
  have n2 := (dot_apx h2 h1 h3 h4 (sum_sq_le (hAs.trans (add_comm _ _)) hBs A0 B0.le) hAB).2
  have d := (dot_apx h3 h4 h3 h4 (sum_sq_le hBs hBs B0.le B0.le) hBB).1
  have hq : ‖cpx x₁ y₁ / cpx x₂ y₂‖ * ‖cpx x₂ y₂‖ = ‖cpx x₁ y₁‖ := by rw [norm_div, div_mul_cancel₀ _ B0.ne']
  have q0 := norm_nonneg (cpx x₁ y₁ / cpx x₂ y₂)
  have hY : ‖cpx x₂ y₂‖ * ‖cpx x₂ y₂‖ ≤ ⟪x₂⟫ * ⟪x₂⟫ + ⟪y₂⟫ * ⟪y₂⟫ := by linarith
  have hd : cpx ((x₁ *ᶠ x₂ +ᶠ y₁ *ᶠ y₂) /ᶠ (x₂ *ᶠ x₂ +ᶠ y₂ *ᶠ y₂)) ((y₁ *ᶠ x₂ -ᶠ x₁ *ᶠ y₂) /ᶠ (x₂ *ᶠ x₂ +ᶠ y₂ *ᶠ y₂)) -
        cpx x₁ y₁ / cpx x₂ y₂ =
      ⟨⟪(x₁ *ᶠ x₂ +ᶠ y₁ *ᶠ y₂) /ᶠ (x₂ *ᶠ x₂ +ᶠ y₂ *ᶠ y₂)⟫ - (⟪x₁⟫ * ⟪x₂⟫ + ⟪y₁⟫ * ⟪y₂⟫) / (⟪x₂⟫ * ⟪x₂⟫ + ⟪y₂⟫ * ⟪y₂⟫),
        ⟪(y₁ *ᶠ x₂ -ᶠ x₁ *ᶠ y₂) /ᶠ (x₂ *ᶠ x₂ +ᶠ y₂ *ᶠ y₂)⟫ - (⟪y₁⟫ * ⟪x₂⟫ - ⟪x₁⟫ * ⟪y₂⟫) / (⟪x₂⟫ * ⟪x₂⟫ + ⟪y₂⟫ * ⟪y₂⟫)⟩ := by
    rw [← hre, ← him]; rfl
  rw [hd]
  clear hd hre him
  generalize ‖cpx x₁ y₁ / cpx x₂ y₂‖ = Q at *
  generalize ‖cpx x₁ y₁‖ = A at *
  generalize ‖cpx x₂ y₂‖ = B at *
  have hη := rη_le
  have hη0 := rη_pos
  have hηe : rη * 2 ^ 121 = 1 / 2 ^ 29 := by unfold rη; norm_num
  have hB2 : 998 / 10 ^ 11 ≤ B * B := by
    have := mul_self_le_mul_self (by norm_num) hB0
    norm_num at this ⊢
    linarith
  have hQ : Q ≤ 2 ^ 77 := by
    by_contra hcon
    have := mul_lt_mul_of_pos_right (not_le.mp hcon) B0
    have := mul_le_mul_of_nonneg_left hB0 (show (0 : ℝ) ≤ 2 ^ 77 by norm_num)
    norm_num at *
    linarith
  have hAB' : A * B = Q * (B * B) := by rw [← hq]; ring
  rw [hAB'] at n1 n2
  obtain ⟨D, hD⟩ : ∃ D, D = B * B := ⟨_, rfl⟩
  rw [← hD] at n1 n2 d hY hB2 hBB
  have hQD : 0 ≤ Q * D := mul_nonneg q0 (le_trans (by norm_num) hB2)
  have hQη : Q * rη ≤ Q * D * (1 / 10 ^ 30) := by
    have : rη ≤ D * (1 / 10 ^ 30) := by norm_num at hη hB2 ⊢; linarith
    have := mul_le_mul_of_nonneg_left this q0
    linarith
  have hE : 201 / 100 * (Q * D) / 16777216 + 4 * rη + Q * (201 / 100 * D / 16777216 + 4 * rη) ≤
      (41 / 10 * Q / 16777216 + 1 / 2 ^ 121) * (D - (201 / 100 * D / 16777216 + 4 * rη)) := by
    have h5 : 4 * rη ≤ 1 / 2 ^ 121 * (9999 / 10000 * D) := by
      have : 4 * rη = 1 / 2 ^ 121 * (4 * (rη * 2 ^ 121)) := by field_simp
      rw [this, hηe]
      refine mul_le_mul_of_nonneg_left ?_ (by norm_num)
      norm_num at hB2 ⊢
      linarith
    have h6 : 9999 / 10000 * D ≤ D - (201 / 100 * D / 16777216 + 4 * rη) := by norm_num at hη hB2 ⊢; linarith
    have h7 := mul_le_mul_of_nonneg_left h6 (show 0 ≤ 41 / 10 * Q / 16777216 + 1 / 2 ^ 121 by positivity)
    refine le_trans ?_ h7
    norm_num at h5 hQη ⊢
    linarith
  have hb : 201 / 100 * D / 16777216 + 4 * rη < D := by norm_num at hη hB2 ⊢; linarith
  have hbig : Q + (41 / 10 * Q / 16777216 + 1 / 2 ^ 121) ≤ 2 ^ 100 := by norm_num at hQ ⊢; linarith
  have k1 := n1.div d hY hb c1 hE hbig
  have k2 := n2.div d hY hb c2 hE hbig
  refine ⟨⟨k1.1, k2.1⟩, (cpx_norm_le k1.2 k2.2).trans ?_⟩
  unfold ru
  norm_num at hη0 hηe ⊢
  linarith

/-- The modulus of a complex number. -/
theorem cpx_abs (h1 : Finite x₁) (h2 : Finite y₁) (hA : ‖cpx x₁ y₁‖ ≤ 2 ^ 63) :
    Finite (Scalar.sqrt (x₁ *ᶠ x₁ +ᶠ y₁ *ᶠ y₁)) ∧
    (1 / 10 ^ 5 ≤ ‖cpx x₁ y₁‖ → |⟪Scalar.sqrt (x₁ *ᶠ x₁ +ᶠ y₁ *ᶠ y₁)⟫ - ‖cpx x₁ y₁‖| ≤ 22 / 10 * ru * ‖cpx x₁ y₁‖) ∧
    (‖cpx x₁ y₁‖ < 1 / 10 ^ 5 → |⟪Scalar.sqrt (x₁ *ᶠ x₁ +ᶠ y₁ *ᶠ y₁)⟫| ≤ 2 / 10 ^ 5) := by
  have hAs := cpx_sq x₁ y₁
  have A0 := norm_nonneg (cpx x₁ y₁)
  have hAA : ‖cpx x₁ y₁‖ * ‖cpx x₁ y₁‖ ≤ 2 ^ 126 := (mul_le_mul hA hA A0 (by norm_num)).trans (by norm_num)
  have d := (dot_apx h1 h2 h1 h2 (sum_sq_le hAs hAs A0 A0) hAA).1
  have e : ⟪x₁⟫ * ⟪x₁⟫ + ⟪y₁⟫ * ⟪y₁⟫ = ‖cpx x₁ y₁‖ ^ 2 := by rw [hAs]; ring
  have nn : 0 ≤ ⟪x₁ *ᶠ x₁ +ᶠ y₁ *ᶠ y₁⟫ := by
    have f1 := (prod_apx h1 h1 (M := 2 ^ 126) (by
      have := (le_cpx x₁ y₁).1
      rw [abs_mul]
      exact (mul_self_le_mul_self (abs_nonneg _) this).trans hAA) le_rfl).1
    have f2 := (prod_apx h2 h2 (M := 2 ^ 126) (by
      have := (le_cpx x₁ y₁).2
      rw [abs_mul]
      exact (mul_self_le_mul_self (abs_nonneg _) this).trans hAA) le_rfl).1
    exact R.add_nonneg f1 f2 d.1 (add_nonneg (R.mul_nonneg h1 h1 f1 (mul_self_nonneg _)) (R.mul_nonneg h2 h2 f2 (mul_self_nonneg _)))
  rw [e] at d
  have hη := rη_le
  have hη0 := rη_pos
  generalize ‖cpx x₁ y₁‖ = A at *
  generalize x₁ *ᶠ x₁ +ᶠ y₁ *ᶠ y₁ = x at *
  refine ⟨R.sqrt_finite d.1 nn, fun h => ?_, fun h => ?_⟩
  · have h' : 1 / 10 ^ 10 ≤ A ^ 2 := by
      have := pow_le_pow_left₀ (by norm_num) h 2
      norm_num at this ⊢
      exact this
    have := (d.sqrt (Y := A) (E := 11 / 10 * A / 16777216) (lt_of_lt_of_le (by norm_num) h)
      (by norm_num at hη h' ⊢; linarith) (by norm_num at hη h' ⊢; linarith)).2
    refine this.trans ?_
    unfold ru
    norm_num
    linarith
  · have h' : A ^ 2 ≤ 1 / 10 ^ 10 := by
      have := pow_le_pow_left₀ A0 h.le 2
      norm_num at this ⊢
      exact this
    have hx : ⟪x⟫ ≤ 2 / 10 ^ 10 := by
      have := (abs_le.mp d.2).2
      norm_num at hη h' ⊢
      linarith
    have hs : √⟪x⟫ ≤ 15 / 10 ^ 6 := Real.sqrt_le_iff.mpr ⟨by norm_num, hx.trans (by norm_num)⟩
    have hn := R.sqrt_near d.1 nn
    have := le_of_dist (abs_of_nonneg (Real.sqrt_nonneg _)).le hn
    refine this.trans ?_
    unfold ru
    norm_num at hs ⊢
    linarith

/-- When the square of a component overflows, so does the sum of the squares. -/
theorem cpx_sq_inf (h1 : Finite x₁) (h2 : Finite y₁) (hb : 2 ^ 65 ≤ |⟪x₁⟫| ∨ 2 ^ 65 ≤ |⟪y₁⟫|) :
    PosInf (x₁ *ᶠ x₁ +ᶠ y₁ *ᶠ y₁) := by
  have key : ∀ {x : F}, Finite x → 2 ^ 65 ≤ |⟪x⟫| → PosInf (x *ᶠ x) := fun {x} hx hl => by
    refine R.mul_inf hx hx (mul_self_nonneg _) fun hf => ?_
    have a1 := R.mul_lt hx hx hf
    have a2 := (R.mul_near hx hx hf).bound
    have a3 := mul_self_le_mul_self (by norm_num) hl
    rw [abs_mul_abs_self] at a3
    have a4 := (abs_le.mp a2).1
    rw [abs_of_nonneg (mul_self_nonneg _)] at a4
    have a5 := (abs_lt.mp a1).2
    have hη := rη_le
    norm_num at *
    linarith
  have sq : ∀ {x : F}, Finite x → Finite (x *ᶠ x) ∨ PosInf (x *ᶠ x) := fun {x} hx => by
    by_cases h : Finite (x *ᶠ x)
    · exact .inl h
    · exact .inr (R.mul_inf hx hx (mul_self_nonneg _) h)
  rcases hb with hb | hb
  · exact R.inf_add (key h1 hb) (sq h2)
  · rcases sq h1 with h | h
    · exact R.fin_add_inf h (key h2 hb)
    · exact R.inf_add h (.inr (key h2 hb))

/-! ## What the comparisons and the polar form do -/

theorem valid_fin {x : F} (h : Finite x) : Utils.isValidValue x = .ok () := by
  simp [Utils.isValidValue, h.1, h.2]

theorem allclose_zero {x : F} (hx : Finite x) (hb : |⟪x⟫| ≤ 2 ^ 126) :
    (Utils.allclose x (lit 0) (lit (1 / 10000)) = .ok true ∧ |⟪x⟫| ≤ 1001 / 10 ^ 7) ∨
    (Utils.allclose x (lit 0) (lit (1 / 10000)) = .ok false ∧ 999 / 10 ^ 7 ≤ |⟪x⟫|) := by
  have e : Utils.allclose x (lit 0) (lit (1 / 10000)) = .ok (decide (Close x (lit 0) (EPSILON : F))) := by
    unfold Utils.allclose
    rw [valid_fin hx, valid_fin R.zero_finite]
    show Except.ok (Scalar.abs (x -ᶠ lit 0) ≤ᶠ lit (1 / 10000)) = _
    by_cases h : Close x (lit 0) (EPSILON : F)
    · rw [decide_eq_true h]; exact congrArg Except.ok h
    · rw [decide_eq_false h]; exact congrArg Except.ok (Bool.eq_false_iff.mpr h)
  have c := close_zero hx hb
  rw [e]
  by_cases h : Close x (lit 0) (EPSILON : F)
  · exact .inl ⟨by rw [decide_eq_true h], c.1 h⟩
  · exact .inr ⟨by rw [decide_eq_false h], c.2 h⟩

theorem polar_part {r c : F} {C : ℝ} (hr : Finite r) (hb : |⟪r⟫| ≤ 2 ^ 99) (hc : Finite c) (hn : |⟪c⟫ - C| ≤ 1 / 2 ^ 22)
    (hC : |C| ≤ 1) : Finite (r *ᶠ c) ∧ |⟪r *ᶠ c⟫ - ⟪r⟫ * C| ≤ 502 / 100 * ru * |⟪r⟫| + rη := by
  have hc' : |⟪c⟫| ≤ 1 + 1 / 2 ^ 22 := le_of_dist hC hn
  have r0 := abs_nonneg ⟪r⟫
  have hp : |⟪r⟫ * ⟪c⟫| ≤ |⟪r⟫| * (1 + 1 / 2 ^ 22) := by
    rw [abs_mul]; exact mul_le_mul_of_nonneg_left hc' r0
  have f : Finite (r *ᶠ c) := R.mul_finite hr hc (hp.trans (by
    have := mul_le_mul_of_nonneg_right hb (show (0:ℝ) ≤ 1 + 1 / 2 ^ 22 by norm_num)
    refine this.trans (by norm_num)))
  have e := (R.mul_near hr hc f).bound
  have d : |⟪r⟫ * ⟪c⟫ - ⟪r⟫ * C| ≤ |⟪r⟫| * (1 / 2 ^ 22) := by
    rw [← mul_sub, abs_mul]; exact mul_le_mul_of_nonneg_left hn r0
  refine ⟨f, ?_⟩
  have t := abs_sub_le ⟪r *ᶠ c⟫ (⟪r⟫ * ⟪c⟫) (⟪r⟫ * C)
  unfold ru
  have e' := e.trans (add_le_add_left (div_le_div_of_nonneg_right hp (by norm_num : (0:ℝ) ≤ 16777216)) rη)
  norm_num at d e' ⊢
  linarith

/-- `r cos θ` and `r sin θ`. -/
theorem cpx_polar [T : Trig F] {r θ : F} (hr : Finite r) (hb : |⟪r⟫| ≤ 2 ^ 99) (hθ : Finite θ) :
    (Finite (r *ᶠ Scalar.cos θ) ∧ Finite (r *ᶠ Scalar.sin θ)) ∧
    ‖cpx (r *ᶠ Scalar.cos θ) (r *ᶠ Scalar.sin θ) - (⟪r⟫ : ℂ) * Complex.exp (⟪θ⟫ * Complex.I)‖ ≤ 8 * ru * |⟪r⟫| + 2 * rη := by
  obtain ⟨f1, e1⟩ := polar_part hr hb (T.cos_finite hθ) (T.cos_near hθ) (Real.abs_cos_le_one _)
  obtain ⟨f2, e2⟩ := polar_part hr hb (T.sin_finite hθ) (T.sin_near hθ) (Real.abs_sin_le_one _)
  refine ⟨⟨f1, f2⟩, ?_⟩
  refine (cpx_norm_le (w := cpx (r *ᶠ Scalar.cos θ) (r *ᶠ Scalar.sin θ) - (⟪r⟫ : ℂ) * Complex.exp (⟪θ⟫ * Complex.I))
    (e := 502 / 100 * ru * |⟪r⟫| + rη) ?_ ?_).trans ?_
  · simpa [cpx, Complex.exp_ofReal_mul_I_re] using e1
  · simpa [cpx, Complex.exp_ofReal_mul_I_im] using e2
  · have : 0 ≤ ru * |⟪r⟫| := mul_nonneg (by unfold ru; positivity) (abs_nonneg _)
    have h : (0:ℝ) ≤ rη := by unfold rη; positivity
    linarith

end


namespace Dsp
namespace Complex
section
variable {F : Type} [Scalar F] [R : Rounded F] {z z1 z2 : Complex F} {c c1 c2 : ℂ}

/-- Both parts of `z` are finite, and together they are `c`. -/
def Holds (z : Complex F) (c : ℂ) : Prop := (Finite z.re ∧ Finite z.im) ∧ cpx z.re z.im = c

theorem add_eq (h1 : z1.Holds c1) (h2 : z2.Holds c2) (s : Complex F) :
    add z1 z2 s = (.ok (), ⟨z1.re +ᶠ z2.re, z1.im +ᶠ z2.im⟩) := by
  rfl

theorem sub_eq (h1 : z1.Holds c1) (h2 : z2.Holds c2) (s : Complex F) :
    sub z1 z2 s = (.ok (), ⟨z1.re -ᶠ z2.re, z1.im -ᶠ z2.im⟩) := by
  rfl

theorem mul_eq (h1 : z1.Holds c1) (h2 : z2.Holds c2) (s : Complex F) :
    mul z1 z2 s = (.ok (), ⟨z1.re *ᶠ z2.re -ᶠ z1.im *ᶠ z2.im, z1.re *ᶠ z2.im +ᶠ z1.im *ᶠ z2.re⟩) := by
  rfl

/-- C121: sum, difference and product in binary32, into any receiver: the exact one up to a relative error of one
rounding for sum and difference and of three for the product, plus what underflow loses. -/
theorem C121_ring (s : Complex F) (h1 : z1.Holds c1) (h2 : z2.Holds c2) :
    (‖c1 + c2‖ ≤ 2 ^ 127 → ∃ w c, add z1 z2 s = (.ok (), w) ∧ w.Holds c ∧
      ‖c - (c1 + c2)‖ ≤ ru * ‖c1 + c2‖ + 2 * rη) ∧
    (‖c1 - c2‖ ≤ 2 ^ 127 → ∃ w c, sub z1 z2 s = (.ok (), w) ∧ w.Holds c ∧
      ‖c - (c1 - c2)‖ ≤ ru * ‖c1 - c2‖ + 2 * rη) ∧
    (‖c1‖ * ‖c2‖ ≤ 2 ^ 126 → ∃ w c, mul z1 z2 s = (.ok (), w) ∧ w.Holds c ∧
      ‖c - c1 * c2‖ ≤ 3 * ru * (‖c1‖ * ‖c2‖) + 6 * rη) := by
  refine ⟨fun hM => ⟨_, cpx (z1.re +ᶠ z2.re) (z1.im +ᶠ z2.im), add_eq h1 h2 s, ?_⟩,
    fun hM => ⟨_, cpx (z1.re -ᶠ z2.re) (z1.im -ᶠ z2.im), sub_eq h1 h2 s, ?_⟩,
    fun hM => ⟨_, cpx (z1.re *ᶠ z2.re -ᶠ z1.im *ᶠ z2.im) (z1.re *ᶠ z2.im +ᶠ z1.im *ᶠ z2.re), mul_eq h1 h2 s, ?_⟩⟩
  all_goals
    obtain ⟨⟨a1, b1⟩, rfl⟩ := h1
    obtain ⟨⟨a2, b2⟩, rfl⟩ := h2
  · obtain ⟨f, e⟩ := cpx_add a1 b1 a2 b2 hM
    exact ⟨⟨f, rfl⟩, e⟩
  · obtain ⟨f, e⟩ := cpx_sub a1 b1 a2 b2 hM
    exact ⟨⟨f, rfl⟩, e⟩
  · obtain ⟨f, e⟩ := cpx_mul a1 b1 a2 b2 hM
    exact ⟨⟨f, rfl⟩, e⟩

/-- C121: opposite and conjugate are exact in binary32. -/
theorem C121_neg (h : z.Holds c) :
    (∃ w, neg z = (.ok (), w) ∧ w.Holds (-c)) ∧ ∃ w, conjugate z = (.ok (), w) ∧ w.Holds ((starRingEnd ℂ) c) := by
  have fr := R.neg_finite h.1.1
  have vr := R.neg_val h.1.1
  have fi := R.neg_finite h.1.2
  have vi := R.neg_val h.1.2
  constructor
  · refine ⟨⟨Scalar.neg z.re, Scalar.neg z.im⟩, ?_, ⟨fr, fi⟩, ?_⟩
    · unfold neg
      rw [Op.get_bind', Op.bind_ok ((C58_set _ _).1 fr).1, Op.get_bind', ((C58_set _ _).1 fi).2]
    · rw [← h.2]; apply _root_.Complex.ext <;> simp [cpx, vr, vi]
  · refine ⟨⟨z.re, Scalar.neg z.im⟩, ?_, ⟨h.1.1, fi⟩, ?_⟩
    · unfold conjugate
      rw [Op.get_bind', ((C58_set _ _).1 fi).2]
    · rw [← h.2]; apply _root_.Complex.ext <;> simp [cpx, vi]

theorem div_cases (h1 : z1.Holds c1) (h2 : z2.Holds c2) (hB : ‖c2‖ ≤ 2 ^ 126) (s : Complex F) :
    (div z1 z2 s = (.error (.err .Nan), s) ∧ |c2.re| ≤ 1001 / 10 ^ 7 ∧ |c2.im| ≤ 1001 / 10 ^ 7) ∨
    (div z1 z2 s = (.ok (), ⟨(z1.re *ᶠ z2.re +ᶠ z1.im *ᶠ z2.im) /ᶠ (z2.re *ᶠ z2.re +ᶠ z2.im *ᶠ z2.im),
        (z1.im *ᶠ z2.re -ᶠ z1.re *ᶠ z2.im) /ᶠ (z2.re *ᶠ z2.re +ᶠ z2.im *ᶠ z2.im)⟩) ∧
      (999 / 10 ^ 7 ≤ |c2.re| ∨ 999 / 10 ^ 7 ≤ |c2.im|)) := by
  have hl := le_cpx z2.re z2.im
  rw [h2.2] at hl
  have r1 : c2.re = ⟪z2.re⟫ := by rw [← h2.2]; rfl
  have r2 : c2.im = ⟪z2.im⟫ := by rw [← h2.2]; rfl
  rw [r1, r2]
  unfold div EPSILON
  
  rcases allclose_zero h2.1.1 (hl.1.trans hB) with ⟨e1, k1⟩ | ⟨e1, k1⟩
  · rcases allclose_zero h2.1.2 (hl.2.trans hB) with ⟨e2, k2⟩ | ⟨e2, k2⟩
    · refine .inl ⟨?_, k1, k2⟩
      simp only [e1, e2, Op.liftOk_bind, if_true]
      rfl
    · refine .inr ⟨?_, .inr k2⟩
      simp only [e1, e2, Op.liftOk_bind, if_true, Bool.false_eq_true, if_false]
      rfl
  · refine .inr ⟨?_, .inl k1⟩
    simp only [e1, Op.liftOk_bind, Bool.false_eq_true, if_false]
    rfl

/-- C121: division in binary32, for sizes up to `2^63`: either it fails with `Nan`, leaves the receiver, and both parts
of the divisor are at most about the threshold, or one of them is at least about the threshold and what is stored is the
quotient up to eight roundings. -/
theorem C121_div (s : Complex F) (h1 : z1.Holds c1) (h2 : z2.Holds c2) (hA : ‖c1‖ ≤ 2 ^ 63) (hB : ‖c2‖ ≤ 2 ^ 63) :
    (div z1 z2 s = (.error (.err .Nan), s) ∧ |c2.re| ≤ 1001 / 10 ^ 7 ∧ |c2.im| ≤ 1001 / 10 ^ 7) ∨
    ∃ w c, div z1 z2 s = (.ok (), w) ∧ w.Holds c ∧ (999 / 10 ^ 7 ≤ |c2.re| ∨ 999 / 10 ^ 7 ≤ |c2.im|) ∧
      ‖c - c1 / c2‖ ≤ 8 * ru * ‖c1 / c2‖ + 1 / 2 ^ 120 := by
  rcases div_cases h1 h2 (hB.trans (by norm_num)) s with h | ⟨e, hl⟩
  · exact .inl h
  · refine .inr ⟨_, cpx ((z1.re *ᶠ z2.re +ᶠ z1.im *ᶠ z2.im) /ᶠ (z2.re *ᶠ z2.re +ᶠ z2.im *ᶠ z2.im))
        ((z1.im *ᶠ z2.re -ᶠ z1.re *ᶠ z2.im) /ᶠ (z2.re *ᶠ z2.re +ᶠ z2.im *ᶠ z2.im)), e, ?_⟩
    have hB0 : 999 / 10 ^ 7 ≤ ‖c2‖ := by
      rcases hl with h | h
      · exact h.trans (_root_.Complex.abs_re_le_norm c2)
      · exact h.trans (_root_.Complex.abs_im_le_norm c2)
    obtain ⟨⟨a1, b1⟩, rfl⟩ := h1
    obtain ⟨⟨a2, b2⟩, rfl⟩ := h2
    obtain ⟨f, e⟩ := cpx_div a1 b1 a2 b2 hA hB hB0
    exact ⟨⟨f, rfl⟩, hl, e⟩

/-- C121: a divisor with a part of at least `2^65` has an infinite squared modulus, so as long as the product of
the two sizes does not overflow the quotient that is stored is zero, whatever the dividend is. -/
theorem C121_div_zero (s : Complex F) (h1 : z1.Holds c1) (h2 : z2.Holds c2) (hB : ‖c2‖ ≤ 2 ^ 126)
    (hb : 2 ^ 65 ≤ |c2.re| ∨ 2 ^ 65 ≤ |c2.im|) (hM : ‖c1‖ * ‖c2‖ ≤ 2 ^ 126) :
    ∃ w, div z1 z2 s = (.ok (), w) ∧ w.Holds 0 := by
  rcases div_cases h1 h2 hB s with ⟨_, k1, k2⟩ | ⟨e, _⟩
  · exfalso
    rcases hb with h | h
    · have := h.trans k1; norm_num at this
    · have := h.trans k2; norm_num at this
  · refine ⟨_, e, ?_⟩
    obtain ⟨⟨a1, b1⟩, rfl⟩ := h1
    obtain ⟨⟨a2, b2⟩, rfl⟩ := h2
    have i := cpx_sq_inf a2 b2 hb
    have s1 := sum_sq_le (cpx_sq z1.re z1.im) (cpx_sq z2.re z2.im) (norm_nonneg _) (norm_nonneg _)
    have s2 := sum_sq_le (c := ⟪z2.re⟫) (d := ⟪z2.im⟫) (a := ⟪z1.im⟫) (b := ⟪z1.re⟫)
      ((cpx_sq z1.re z1.im).trans (add_comm _ _)) (cpx_sq z2.re z2.im) (norm_nonneg _) (norm_nonneg _)
    obtain ⟨f1, v1⟩ := R.div_inf (dot_apx a1 b1 a2 b2 s1 hM).1.1 i
    obtain ⟨f2, v2⟩ := R.div_inf (dot_apx b1 a1 a2 b2 s2 hM).2.1 i
    refine ⟨⟨f1, f2⟩, _root_.Complex.ext v1 v2⟩

/-- C121: the modulus in binary32 for sizes up to `2^63`: either 0 is returned and the modulus is at most about the
threshold, or the modulus is at least about the threshold and what is returned is within three roundings of it. -/
theorem C121_module (h : z.Holds c) (hA : ‖c‖ ≤ 2 ^ 63) :
    (∃ r, calculateModule z = .ok r ∧ Finite r ∧ ⟪r⟫ = 0 ∧ ‖c‖ ≤ 1002 / 10 ^ 7) ∨
    ∃ r, calculateModule z = .ok r ∧ Finite r ∧ |⟪r⟫ - ‖c‖| ≤ 3 * ru * ‖c‖ ∧ 998 / 10 ^ 7 ≤ ‖c‖ := by
  obtain ⟨f, n1, n2⟩ : _ ∧ (_ → |_ - ‖c‖| ≤ _) ∧ (_ → _) := by
    have := cpx_abs h.1.1 h.1.2 (by rw [h.2]; exact hA)
    rw [h.2] at this; exact this
  have c0 := norm_nonneg c
  have hb : |⟪Scalar.sqrt (z.re *ᶠ z.re +ᶠ z.im *ᶠ z.im)⟫| ≤ 2 ^ 126 := by
    by_cases hc : 1 / 10 ^ 5 ≤ ‖c‖
    · have := le_of_dist (abs_of_nonneg c0).le (n1 hc)
      unfold ru at this
      refine this.trans ?_
      norm_num at *
      linarith
    · exact (n2 (not_le.mp hc)).trans (by norm_num)
  unfold calculateModule EPSILON
  
  rcases allclose_zero f hb with ⟨e, k⟩ | ⟨e, k⟩
  · refine .inl ⟨lit 0, ?_, R.zero_finite, R.zero_val, ?_⟩
    · simp only [e, Res.ok_bind, if_true]
    · by_cases hc : 1 / 10 ^ 5 ≤ ‖c‖
      · have := n1 hc
        have a := abs_sub_abs_le_abs_sub ‖c‖ ⟪Scalar.sqrt (z.re *ᶠ z.re +ᶠ z.im *ᶠ z.im)⟫
        rw [abs_sub_comm, abs_of_nonneg c0] at a
        unfold ru at this
        norm_num at *
        linarith
      · exact (not_le.mp hc).le.trans (by norm_num)
  · refine .inr ⟨_, ?_, f, ?_⟩
    · simp only [e, Res.ok_bind, Bool.false_eq_true, if_false]
    · by_cases hc : 1 / 10 ^ 5 ≤ ‖c‖
      · have := n1 hc
        have a := abs_sub_abs_le_abs_sub ⟪Scalar.sqrt (z.re *ᶠ z.re +ᶠ z.im *ᶠ z.im)⟫ ‖c‖
        rw [abs_of_nonneg c0] at a
        unfold ru at this ⊢
        norm_num at *
        constructor <;> linarith
      · have := k.trans (n2 (not_le.mp hc))
        norm_num at this

/-- C121: with a part of at least `2^65` the modulus is refused as infinite, although it is a number of binary32 whenever
the parts are below `2^127`. -/
theorem C121_module_inf (h : z.Holds c) (hb : 2 ^ 65 ≤ |c.re| ∨ 2 ^ 65 ≤ |c.im|) :
    calculateModule z = .error (.err .Inf) := by
  have r1 : c.re = ⟪z.re⟫ := by rw [← h.2]; rfl
  have r2 : c.im = ⟪z.im⟫ := by rw [← h.2]; rfl
  rw [r1, r2] at hb
  have i := R.sqrt_inf (cpx_sq_inf h.1.1 h.1.2 hb)
  unfold calculateModule
  
  have e : Utils.allclose (Scalar.sqrt (z.re *ᶠ z.re +ᶠ z.im *ᶠ z.im)) (lit 0) EPSILON = .error (.err .Inf) :=
    Utils.C60_allclose.2.2.2.1 i.1 i.2.1
  simp only [e]
  rfl

/-- C121: `convert_from_polar` in binary32. -/
theorem C121_polar [Trig F] {r θ : F} (hr : Finite r) (hb : |⟪r⟫| ≤ 2 ^ 99) (hθ : Finite θ) (s : Complex F) :
    ∃ w c, convertFromPolar r θ s = (.ok (), w) ∧ w.Holds c ∧
      ‖c - (⟪r⟫ : ℂ) * _root_.Complex.exp (⟪θ⟫ * _root_.Complex.I)‖ ≤ 8 * ru * |⟪r⟫| + 2 * rη := by
  obtain ⟨⟨f1, f2⟩, e⟩ := cpx_polar hr hb hθ
  refine ⟨⟨r *ᶠ Scalar.cos θ, r *ᶠ Scalar.sin θ⟩, _, ?_, ⟨⟨f1, f2⟩, rfl⟩, e⟩
  unfold convertFromPolar setRealPart setImaginaryPart
  simp only [valid_fin hr, valid_fin hθ, valid_fin f1, valid_fin f2]
  rfl

/-- C121: `expo` in binary32, when the exponential of the real part is returned with a relative error `κ` and does not
exceed `2^99`: either zero is stored and the exponential has size at most about the threshold, or what is stored is the
exponential up to `κ` and eight roundings. -/
theorem C121_expo [Trig F] {κ : ℝ} (h : z.Holds c) (hm : Finite (Scalar.exp z.re)) (k0 : 0 ≤ κ) (k1 : κ ≤ 1 / 100)
    (hκ : |⟪Scalar.exp z.re⟫ - Real.exp c.re| ≤ κ * Real.exp c.re) (hb : Real.exp c.re ≤ 2 ^ 98) :
    (∃ w, expo z = (.ok (), w) ∧ w.Holds 0 ∧ ‖_root_.Complex.exp c‖ * (1 - κ) ≤ 1001 / 10 ^ 7) ∨
    ∃ w d, expo z = (.ok (), w) ∧ w.Holds d ∧ 999 / 10 ^ 7 ≤ ‖_root_.Complex.exp c‖ * (1 + κ) ∧
      ‖d - _root_.Complex.exp c‖ ≤ (κ + 8 * ru * (1 + κ)) * ‖_root_.Complex.exp c‖ + 2 * rη := by
  have ep := Real.exp_pos c.re
  obtain ⟨l, u⟩ := abs_le.mp hκ
  have kk : κ * Real.exp c.re ≤ 1 / 100 * Real.exp c.re := mul_le_mul_of_nonneg_right k1 ep.le
  have m0 : 0 ≤ ⟪Scalar.exp z.re⟫ := by linarith
  have m1 : |⟪Scalar.exp z.re⟫| ≤ 2 ^ 99 := by
    rw [abs_of_nonneg m0]; norm_num at *; linarith
  have r2 : c.im = ⟪z.im⟫ := by rw [← h.2]; rfl
  unfold expo EPSILON
  simp only [Op.get_bind', Op.liftOk_bind]
  rw [_root_.Complex.norm_exp]
  rcases allclose_zero hm (m1.trans (by norm_num)) with ⟨e, k⟩ | ⟨e, k⟩
  · refine .inl ⟨⟨lit 0, lit 0⟩, ?_, ⟨⟨R.zero_finite, R.zero_finite⟩, ?_⟩, ?_⟩
    · simp only [e, Op.liftOk_bind, if_true]; rfl
    · exact _root_.Complex.ext R.zero_val R.zero_val
    · rw [abs_of_nonneg m0] at k; linarith
  · obtain ⟨f, d⟩ := cpx_polar (θ := z.im) hm m1 h.1.2
    refine .inr ⟨⟨Scalar.exp z.re *ᶠ Scalar.cos z.im, Scalar.exp z.re *ᶠ Scalar.sin z.im⟩, _, ?_, ⟨f, rfl⟩, ?_, ?_⟩
    · simp only [e, Op.liftOk_bind, Bool.false_eq_true, if_false]; rfl
    · rw [abs_of_nonneg m0] at k; linarith
    · rw [abs_of_nonneg m0, ← r2] at d
      have hx : _root_.Complex.exp c = (Real.exp c.re : ℂ) * _root_.Complex.exp (c.im * _root_.Complex.I) := by
        rw [_root_.Complex.ofReal_exp, ← _root_.Complex.exp_add, _root_.Complex.re_add_im]
      have hd : ‖(⟪Scalar.exp z.re⟫ : ℂ) * _root_.Complex.exp (c.im * _root_.Complex.I) - _root_.Complex.exp c‖ ≤
          κ * Real.exp c.re := by
        rw [hx, ← sub_mul, norm_mul, _root_.Complex.norm_exp_ofReal_mul_I, mul_one, ← _root_.Complex.ofReal_sub,
          _root_.Complex.norm_real]
        exact hκ
      refine (norm_sub_le_norm_sub_add_norm_sub _ _ _).trans ((add_le_add d hd).trans ?_)
      have : ru * ⟪Scalar.exp z.re⟫ ≤ ru * ((1 + κ) * Real.exp c.re) :=
        mul_le_mul_of_nonneg_left (by linarith) (by unfold ru; positivity)
      linarith

end
end Complex
end Dsp

namespace TempDsp
namespace Complex
section
variable {F : Type} [Scalar F] [R : Rounded F] {z z1 z2 : Complex F} {c c1 c2 : ℂ}

/-- Both parts of `z` are finite, and together they are `c`. -/
def Holds (z : Complex F) (c : ℂ) : Prop := (Finite z.re ∧ Finite z.im) ∧ cpx z.re z.im = c

theorem add_eq (h1 : z1.Holds c1) (h2 : z2.Holds c2) (s : Complex F) :
    add z1 z2 s = (.ok (), ⟨z1.re +ᶠ z2.re, z1.im +ᶠ z2.im⟩) := by
  unfold add; simp only [re_ok h1.1.1, im_ok h1.1.2, re_ok h2.1.1, im_ok h2.1.2]; rfl

theorem sub_eq (h1 : z1.Holds c1) (h2 : z2.Holds c2) (s : Complex F) :
    sub z1 z2 s = (.ok (), ⟨z1.re -ᶠ z2.re, z1.im -ᶠ z2.im⟩) := by
  unfold sub; simp only [re_ok h1.1.1, im_ok h1.1.2, re_ok h2.1.1, im_ok h2.1.2]; rfl

theorem mul_eq (h1 : z1.Holds c1) (h2 : z2.Holds c2) (s : Complex F) :
    mul z1 z2 s = (.ok (), ⟨z1.re *ᶠ z2.re -ᶠ z1.im *ᶠ z2.im, z1.re *ᶠ z2.im +ᶠ z1.im *ᶠ z2.re⟩) := by
  unfold mul; simp only [re_ok h1.1.1, im_ok h1.1.2, re_ok h2.1.1, im_ok h2.1.2]; rfl


theorem inPlace_eq (h1 : z1.Holds c1) (h2 : z2.Holds c2) :
    addInPlace z2 z1 = add z1 z2 z1 ∧ subInPlace z2 z1 = sub z1 z2 z1 ∧ mulInPlace z2 z1 = mul z1 z2 z1 := by
  rw [add_eq h1 h2, sub_eq h1 h2, mul_eq h1 h2]
  unfold addInPlace subInPlace mulInPlace
  refine ⟨?_, ?_, ?_⟩
  · simp only [re_ok h2.1.1, im_ok h2.1.2]; rfl
  · simp only [re_ok h2.1.1, im_ok h2.1.2]; rfl
  · simp only [Op.get_bind', re_ok h1.1.1, im_ok h1.1.2, re_ok h2.1.1, im_ok h2.1.2]; rfl

/-- C121: sum, difference and product of `temp/dsp` in binary32, into any receiver: the exact one up to a relative error of one
rounding for sum and difference and of three for the product, plus what underflow loses. The forms in place store the same. -/
theorem C121_temp_ring (s : Complex F) (h1 : z1.Holds c1) (h2 : z2.Holds c2) :
    (‖c1 + c2‖ ≤ 2 ^ 127 → ∃ w c, add z1 z2 s = (.ok (), w) ∧ addInPlace z2 z1 = (.ok (), w) ∧ w.Holds c ∧
      ‖c - (c1 + c2)‖ ≤ ru * ‖c1 + c2‖ + 2 * rη) ∧
    (‖c1 - c2‖ ≤ 2 ^ 127 → ∃ w c, sub z1 z2 s = (.ok (), w) ∧ subInPlace z2 z1 = (.ok (), w) ∧ w.Holds c ∧
      ‖c - (c1 - c2)‖ ≤ ru * ‖c1 - c2‖ + 2 * rη) ∧
    (‖c1‖ * ‖c2‖ ≤ 2 ^ 126 → ∃ w c, mul z1 z2 s = (.ok (), w) ∧ mulInPlace z2 z1 = (.ok (), w) ∧ w.Holds c ∧
      ‖c - c1 * c2‖ ≤ 3 * ru * (‖c1‖ * ‖c2‖) + 6 * rη) := by
  refine ⟨fun hM => ⟨_, cpx (z1.re +ᶠ z2.re) (z1.im +ᶠ z2.im), add_eq h1 h2 s, by rw [(inPlace_eq h1 h2).1]; exact add_eq h1 h2 z1, ?_⟩,
    fun hM => ⟨_, cpx (z1.re -ᶠ z2.re) (z1.im -ᶠ z2.im), sub_eq h1 h2 s, by rw [(inPlace_eq h1 h2).2.1]; exact sub_eq h1 h2 z1, ?_⟩,
    fun hM => ⟨_, cpx (z1.re *ᶠ z2.re -ᶠ z1.im *ᶠ z2.im) (z1.re *ᶠ z2.im +ᶠ z1.im *ᶠ z2.re), mul_eq h1 h2 s, by rw [(inPlace_eq h1 h2).2.2]; exact mul_eq h1 h2 z1, ?_⟩⟩
  all_goals
    obtain ⟨⟨a1, b1⟩, rfl⟩ := h1
    obtain ⟨⟨a2, b2⟩, rfl⟩ := h2
  · obtain ⟨f, e⟩ := cpx_add a1 b1 a2 b2 hM
    exact ⟨⟨f, rfl⟩, e⟩
  · obtain ⟨f, e⟩ := cpx_sub a1 b1 a2 b2 hM
    exact ⟨⟨f, rfl⟩, e⟩
  · obtain ⟨f, e⟩ := cpx_mul a1 b1 a2 b2 hM
    exact ⟨⟨f, rfl⟩, e⟩

/-- C121: opposite and conjugate of `temp/dsp` are exact in binary32. -/
theorem C121_temp_neg (h : z.Holds c) :
    (∃ w, neg z = (.ok (), w) ∧ w.Holds (-c)) ∧ ∃ w, conjugate z = (.ok (), w) ∧ w.Holds ((starRingEnd ℂ) c) := by
  have fr := R.neg_finite h.1.1
  have vr := R.neg_val h.1.1
  have fi := R.neg_finite h.1.2
  have vi := R.neg_val h.1.2
  constructor
  · refine ⟨⟨Scalar.neg z.re, Scalar.neg z.im⟩, ?_, ⟨fr, fi⟩, ?_⟩
    · unfold neg
      simp only [Op.get_bind', re_ok h.1.1, im_ok h.1.2, Op.liftOk_bind]; rw [Op.bind_ok (set_re fr _), set_im fi]
    · rw [← h.2]; apply _root_.Complex.ext <;> simp [cpx, vr, vi]
  · refine ⟨⟨z.re, Scalar.neg z.im⟩, ?_, ⟨h.1.1, fi⟩, ?_⟩
    · unfold conjugate
      simp only [Op.get_bind', re_ok h.1.1, im_ok h.1.2, Op.liftOk_bind]; rw [set_im fi]
    · rw [← h.2]; apply _root_.Complex.ext <;> simp [cpx, vi]

theorem div_cases (h1 : z1.Holds c1) (h2 : z2.Holds c2) (hB : ‖c2‖ ≤ 2 ^ 126) (s : Complex F) :
    (div z1 z2 s = (.error (.err .Inf), s) ∧ |c2.re| ≤ 1001 / 10 ^ 7 ∧ |c2.im| ≤ 1001 / 10 ^ 7) ∨
    (div z1 z2 s = (.ok (), ⟨(z1.re *ᶠ z2.re +ᶠ z1.im *ᶠ z2.im) /ᶠ (z2.re *ᶠ z2.re +ᶠ z2.im *ᶠ z2.im),
        (z1.im *ᶠ z2.re -ᶠ z1.re *ᶠ z2.im) /ᶠ (z2.re *ᶠ z2.re +ᶠ z2.im *ᶠ z2.im)⟩) ∧
      (999 / 10 ^ 7 ≤ |c2.re| ∨ 999 / 10 ^ 7 ≤ |c2.im|)) := by
  have hl := le_cpx z2.re z2.im
  rw [h2.2] at hl
  have r1 : c2.re = ⟪z2.re⟫ := by rw [← h2.2]; rfl
  have r2 : c2.im = ⟪z2.im⟫ := by rw [← h2.2]; rfl
  rw [r1, r2]
  unfold div EPSILON
  simp only [re_ok h1.1.1, im_ok h1.1.2, re_ok h2.1.1, im_ok h2.1.2, Op.liftOk_bind]
  rcases allclose_zero h2.1.1 (hl.1.trans hB) with ⟨e1, k1⟩ | ⟨e1, k1⟩
  · rcases allclose_zero h2.1.2 (hl.2.trans hB) with ⟨e2, k2⟩ | ⟨e2, k2⟩
    · refine .inl ⟨?_, k1, k2⟩
      simp only [e1, e2, Op.liftOk_bind, if_true]
      rfl
    · refine .inr ⟨?_, .inr k2⟩
      simp only [e1, e2, Op.liftOk_bind, if_true, Bool.false_eq_true, if_false]
      rfl
  · refine .inr ⟨?_, .inl k1⟩
    simp only [e1, Op.liftOk_bind, Bool.false_eq_true, if_false]
    rfl

/-- C121: division of `temp/dsp` in binary32, for sizes up to `2^63`: either it fails with `Inf`, leaves the receiver, and both parts
of the divisor are at most about the threshold, or one of them is at least about the threshold and what is stored is the
quotient up to eight roundings. -/
theorem C121_temp_div (s : Complex F) (h1 : z1.Holds c1) (h2 : z2.Holds c2) (hA : ‖c1‖ ≤ 2 ^ 63) (hB : ‖c2‖ ≤ 2 ^ 63) :
    (div z1 z2 s = (.error (.err .Inf), s) ∧ |c2.re| ≤ 1001 / 10 ^ 7 ∧ |c2.im| ≤ 1001 / 10 ^ 7) ∨
    ∃ w c, div z1 z2 s = (.ok (), w) ∧ w.Holds c ∧ (999 / 10 ^ 7 ≤ |c2.re| ∨ 999 / 10 ^ 7 ≤ |c2.im|) ∧
      ‖c - c1 / c2‖ ≤ 8 * ru * ‖c1 / c2‖ + 1 / 2 ^ 120 := by
  rcases div_cases h1 h2 (hB.trans (by norm_num)) s with h | ⟨e, hl⟩
  · exact .inl h
  · refine .inr ⟨_, cpx ((z1.re *ᶠ z2.re +ᶠ z1.im *ᶠ z2.im) /ᶠ (z2.re *ᶠ z2.re +ᶠ z2.im *ᶠ z2.im))
        ((z1.im *ᶠ z2.re -ᶠ z1.re *ᶠ z2.im) /ᶠ (z2.re *ᶠ z2.re +ᶠ z2.im *ᶠ z2.im)), e, ?_⟩
    have hB0 : 999 / 10 ^ 7 ≤ ‖c2‖ := by
      rcases hl with h | h
      · exact h.trans (_root_.Complex.abs_re_le_norm c2)
      · exact h.trans (_root_.Complex.abs_im_le_norm c2)
    obtain ⟨⟨a1, b1⟩, rfl⟩ := h1
    obtain ⟨⟨a2, b2⟩, rfl⟩ := h2
    obtain ⟨f, e⟩ := cpx_div a1 b1 a2 b2 hA hB hB0
    exact ⟨⟨f, rfl⟩, hl, e⟩

/-- C121: a divisor of `temp/dsp` with a part of at least `2^65` has an infinite squared modulus, so as long as the product of
the two sizes does not overflow the quotient that is stored is zero, whatever the dividend is. -/
theorem C121_temp_div_zero (s : Complex F) (h1 : z1.Holds c1) (h2 : z2.Holds c2) (hB : ‖c2‖ ≤ 2 ^ 126)
    (hb : 2 ^ 65 ≤ |c2.re| ∨ 2 ^ 65 ≤ |c2.im|) (hM : ‖c1‖ * ‖c2‖ ≤ 2 ^ 126) :
    ∃ w, div z1 z2 s = (.ok (), w) ∧ w.Holds 0 := by
  rcases div_cases h1 h2 hB s with ⟨_, k1, k2⟩ | ⟨e, _⟩
  · exfalso
    rcases hb with h | h
    · have := h.trans k1; norm_num at this
    · have := h.trans k2; norm_num at this
  · refine ⟨_, e, ?_⟩
    obtain ⟨⟨a1, b1⟩, rfl⟩ := h1
    obtain ⟨⟨a2, b2⟩, rfl⟩ := h2
    have i := cpx_sq_inf a2 b2 hb
    have s1 := sum_sq_le (cpx_sq z1.re z1.im) (cpx_sq z2.re z2.im) (norm_nonneg _) (norm_nonneg _)
    have s2 := sum_sq_le (c := ⟪z2.re⟫) (d := ⟪z2.im⟫) (a := ⟪z1.im⟫) (b := ⟪z1.re⟫)
      ((cpx_sq z1.re z1.im).trans (add_comm _ _)) (cpx_sq z2.re z2.im) (norm_nonneg _) (norm_nonneg _)
    obtain ⟨f1, v1⟩ := R.div_inf (dot_apx a1 b1 a2 b2 s1 hM).1.1 i
    obtain ⟨f2, v2⟩ := R.div_inf (dot_apx b1 a1 a2 b2 s2 hM).2.1 i
    refine ⟨⟨f1, f2⟩, _root_.Complex.ext v1 v2⟩

/-- C121: the modulus of `temp/dsp` in binary32 for sizes up to `2^63`: either 0 is returned and the modulus is at most about the
threshold, or the modulus is at least about the threshold and what is returned is within three roundings of it. -/
theorem C121_temp_module (h : z.Holds c) (hA : ‖c‖ ≤ 2 ^ 63) :
    (∃ r, calculateModule z = .ok r ∧ Finite r ∧ ⟪r⟫ = 0 ∧ ‖c‖ ≤ 1002 / 10 ^ 7) ∨
    ∃ r, calculateModule z = .ok r ∧ Finite r ∧ |⟪r⟫ - ‖c‖| ≤ 3 * ru * ‖c‖ ∧ 998 / 10 ^ 7 ≤ ‖c‖ := by
  obtain ⟨f, n1, n2⟩ : _ ∧ (_ → |_ - ‖c‖| ≤ _) ∧ (_ → _) := by
    have := cpx_abs h.1.1 h.1.2 (by rw [h.2]; exact hA)
    rw [h.2] at this; exact this
  have c0 := norm_nonneg c
  have hb : |⟪Scalar.sqrt (z.re *ᶠ z.re +ᶠ z.im *ᶠ z.im)⟫| ≤ 2 ^ 126 := by
    by_cases hc : 1 / 10 ^ 5 ≤ ‖c‖
    · have := le_of_dist (abs_of_nonneg c0).le (n1 hc)
      unfold ru at this
      refine this.trans ?_
      norm_num at *
      linarith
    · exact (n2 (not_le.mp hc)).trans (by norm_num)
  unfold calculateModule EPSILON
  simp only [re_ok h.1.1, im_ok h.1.2, Res.ok_bind]
  rcases allclose_zero f hb with ⟨e, k⟩ | ⟨e, k⟩
  · refine .inl ⟨lit 0, ?_, R.zero_finite, R.zero_val, ?_⟩
    · simp only [e, Res.ok_bind, if_true]
    · by_cases hc : 1 / 10 ^ 5 ≤ ‖c‖
      · have := n1 hc
        have a := abs_sub_abs_le_abs_sub ‖c‖ ⟪Scalar.sqrt (z.re *ᶠ z.re +ᶠ z.im *ᶠ z.im)⟫
        rw [abs_sub_comm, abs_of_nonneg c0] at a
        unfold ru at this
        norm_num at *
        linarith
      · exact (not_le.mp hc).le.trans (by norm_num)
  · refine .inr ⟨_, ?_, f, ?_⟩
    · simp only [e, Res.ok_bind, Bool.false_eq_true, if_false]
    · by_cases hc : 1 / 10 ^ 5 ≤ ‖c‖
      · have := n1 hc
        have a := abs_sub_abs_le_abs_sub ⟪Scalar.sqrt (z.re *ᶠ z.re +ᶠ z.im *ᶠ z.im)⟫ ‖c‖
        rw [abs_of_nonneg c0] at a
        unfold ru at this ⊢
        norm_num at *
        constructor <;> linarith
      · have := k.trans (n2 (not_le.mp hc))
        norm_num at this

/-- C121: with a part of at least `2^65` the modulus of `temp/dsp` is refused as infinite, although it is a number of binary32 whenever
the parts are below `2^127`. -/
theorem C121_temp_module_inf (h : z.Holds c) (hb : 2 ^ 65 ≤ |c.re| ∨ 2 ^ 65 ≤ |c.im|) :
    calculateModule z = .error (.err .Inf) := by
  have r1 : c.re = ⟪z.re⟫ := by rw [← h.2]; rfl
  have r2 : c.im = ⟪z.im⟫ := by rw [← h.2]; rfl
  rw [r1, r2] at hb
  have i := R.sqrt_inf (cpx_sq_inf h.1.1 h.1.2 hb)
  unfold calculateModule
  simp only [re_ok h.1.1, im_ok h.1.2, Res.ok_bind]
  have e : Utils.allclose (Scalar.sqrt (z.re *ᶠ z.re +ᶠ z.im *ᶠ z.im)) (lit 0) EPSILON = .error (.err .Inf) :=
    Utils.C60_allclose.2.2.2.1 i.1 i.2.1
  simp only [e]
  rfl

/-- C121: `convert_from_polar` of `temp/dsp` in binary32. -/
theorem C121_temp_polar [Trig F] {r θ : F} (hr : Finite r) (hb : |⟪r⟫| ≤ 2 ^ 99) (hθ : Finite θ) (s : Complex F) :
    ∃ w c, convertFromPolar r θ s = (.ok (), w) ∧ w.Holds c ∧
      ‖c - (⟪r⟫ : ℂ) * _root_.Complex.exp (⟪θ⟫ * _root_.Complex.I)‖ ≤ 8 * ru * |⟪r⟫| + 2 * rη := by
  obtain ⟨⟨f1, f2⟩, e⟩ := cpx_polar hr hb hθ
  refine ⟨⟨r *ᶠ Scalar.cos θ, r *ᶠ Scalar.sin θ⟩, _, ?_, ⟨⟨f1, f2⟩, rfl⟩, e⟩
  unfold convertFromPolar setRealPart setImaginaryPart
  simp only [valid_fin hr, valid_fin hθ, valid_fin f1, valid_fin f2]
  rfl

/-- C121: `expo` of `temp/dsp` in binary32, when the exponential of the real part is returned with a relative error `κ` and does not
exceed `2^99`: either zero is stored and the exponential has size at most about the threshold, or what is stored is the
exponential up to `κ` and eight roundings. -/
theorem C121_temp_expo [Trig F] {κ : ℝ} (h : z.Holds c) (hm : Finite (Scalar.exp z.re)) (k0 : 0 ≤ κ) (k1 : κ ≤ 1 / 100)
    (hκ : |⟪Scalar.exp z.re⟫ - Real.exp c.re| ≤ κ * Real.exp c.re) (hb : Real.exp c.re ≤ 2 ^ 98) :
    (∃ w, expo z = (.ok (), w) ∧ w.Holds 0 ∧ ‖_root_.Complex.exp c‖ * (1 - κ) ≤ 1001 / 10 ^ 7) ∨
    ∃ w d, expo z = (.ok (), w) ∧ w.Holds d ∧ 999 / 10 ^ 7 ≤ ‖_root_.Complex.exp c‖ * (1 + κ) ∧
      ‖d - _root_.Complex.exp c‖ ≤ (κ + 8 * ru * (1 + κ)) * ‖_root_.Complex.exp c‖ + 2 * rη := by
  have ep := Real.exp_pos c.re
  obtain ⟨l, u⟩ := abs_le.mp hκ
  have kk : κ * Real.exp c.re ≤ 1 / 100 * Real.exp c.re := mul_le_mul_of_nonneg_right k1 ep.le
  have m0 : 0 ≤ ⟪Scalar.exp z.re⟫ := by linarith
  have m1 : |⟪Scalar.exp z.re⟫| ≤ 2 ^ 99 := by
    rw [abs_of_nonneg m0]; norm_num at *; linarith
  have r2 : c.im = ⟪z.im⟫ := by rw [← h.2]; rfl
  unfold expo EPSILON
  simp only [Op.get_bind', re_ok h.1.1, im_ok h.1.2, Op.liftOk_bind]
  rw [_root_.Complex.norm_exp]
  rcases allclose_zero hm (m1.trans (by norm_num)) with ⟨e, k⟩ | ⟨e, k⟩
  · refine .inl ⟨⟨lit 0, lit 0⟩, ?_, ⟨⟨R.zero_finite, R.zero_finite⟩, ?_⟩, ?_⟩
    · simp only [e, Op.liftOk_bind, if_true]; rfl
    · exact _root_.Complex.ext R.zero_val R.zero_val
    · rw [abs_of_nonneg m0] at k; linarith
  · obtain ⟨f, d⟩ := cpx_polar (θ := z.im) hm m1 h.1.2
    refine .inr ⟨⟨Scalar.exp z.re *ᶠ Scalar.cos z.im, Scalar.exp z.re *ᶠ Scalar.sin z.im⟩, _, ?_, ⟨f, rfl⟩, ?_, ?_⟩
    · simp only [e, Op.liftOk_bind, Bool.false_eq_true, if_false]; rfl
    · rw [abs_of_nonneg m0] at k; linarith
    · rw [abs_of_nonneg m0, ← r2] at d
      have hx : _root_.Complex.exp c = (Real.exp c.re : ℂ) * _root_.Complex.exp (c.im * _root_.Complex.I) := by
        rw [_root_.Complex.ofReal_exp, ← _root_.Complex.exp_add, _root_.Complex.re_add_im]
      have hd : ‖(⟪Scalar.exp z.re⟫ : ℂ) * _root_.Complex.exp (c.im * _root_.Complex.I) - _root_.Complex.exp c‖ ≤
          κ * Real.exp c.re := by
        rw [hx, ← sub_mul, norm_mul, _root_.Complex.norm_exp_ofReal_mul_I, mul_one, ← _root_.Complex.ofReal_sub,
          _root_.Complex.norm_real]
        exact hκ
      refine (norm_sub_le_norm_sub_add_norm_sub _ _ _).trans ((add_le_add d hd).trans ?_)
      have : ru * ⟪Scalar.exp z.re⟫ ≤ ru * ((1 + κ) * Real.exp c.re) :=
        mul_le_mul_of_nonneg_left (by linarith) (by unfold ru; positivity)
      linarith

end
end Complex
end TempDsp

/-- C121: in binary32 a number divided by itself is stored as not-a-number with success once its squares overflow, in
both crates, although the number, the quotient and their parts are ordinary; `dsp` then also reads it back with
success, `temp/dsp` refuses to read it. -/
theorem C121_div_nan : ∃ x : F32, Finite x ∧ ⟪x⟫ = 2 ^ 65 ∧
    (∀ s : Dsp.Complex F32, ∃ w, Dsp.Complex.div ⟨x, lit 0⟩ ⟨x, lit 0⟩ s = (.ok (), w) ∧ isNaN w.re = true ∧
      Dsp.Complex.getRealPart w = .ok w.re) ∧
    ∀ s : TempDsp.Complex F32, ∃ w, TempDsp.Complex.div ⟨x, lit 0⟩ ⟨x, lit 0⟩ s = (.ok (), w) ∧ isNaN w.re = true ∧
      TempDsp.Complex.getRealPart w = .error (.err .Nan) := by
  refine ⟨lit (2 ^ 65), by decide +kernel, ?_, fun s => ?_, fun s => ?_⟩
  · rw [lit_val (2 ^ 65) (by decide +kernel)]; norm_num
  · have h : Dsp.Complex.Holds (⟨lit (2 ^ 65), lit 0⟩ : Dsp.Complex F32) ⟨2 ^ 65, 0⟩ := by
      refine ⟨⟨by decide +kernel, by decide +kernel⟩, _root_.Complex.ext ?_ ?_⟩
      · show ⟪(lit (2 ^ 65) : F32)⟫ = _
        rw [lit_val (2 ^ 65) (by decide +kernel)]; norm_num
      · show ⟪(lit 0 : F32)⟫ = _
        rw [lit_val 0 (by decide +kernel)]; norm_num
    rcases Dsp.Complex.div_cases h h (by
      have := cpx_norm_le (w := ⟨2 ^ 65, 0⟩) (e := 2 ^ 65) (by norm_num) (by norm_num)
      exact this.trans (by norm_num)) s with ⟨_, k, _⟩ | ⟨e, _⟩
    · norm_num at k
    · exact ⟨_, e, by decide +kernel, rfl⟩
  · have h : TempDsp.Complex.Holds (⟨lit (2 ^ 65), lit 0⟩ : TempDsp.Complex F32) ⟨2 ^ 65, 0⟩ := by
      refine ⟨⟨by decide +kernel, by decide +kernel⟩, _root_.Complex.ext ?_ ?_⟩
      · show ⟪(lit (2 ^ 65) : F32)⟫ = _
        rw [lit_val (2 ^ 65) (by decide +kernel)]; norm_num
      · show ⟪(lit 0 : F32)⟫ = _
        rw [lit_val 0 (by decide +kernel)]; norm_num
    rcases TempDsp.Complex.div_cases h h (by
      have := cpx_norm_le (w := ⟨2 ^ 65, 0⟩) (e := 2 ^ 65) (by norm_num) (by norm_num)
      exact this.trans (by norm_num)) s with ⟨_, k, _⟩ | ⟨e, _⟩
    · norm_num at k
    · refine ⟨_, e, by decide +kernel, by decide +kernel⟩

/-- C58: what a setter stored is what the getter returns, and the other part is still there. -/
theorem C58_get {F : Type} [Scalar F] {a : F} (ha : Finite a) (z : Dsp.Complex F) :
    (∃ w, Dsp.Complex.setRealPart a z = (.ok (), w) ∧ w.getRealPart = .ok a ∧ w.getImaginaryPart = z.getImaginaryPart) ∧
    ∃ w, Dsp.Complex.setImaginaryPart a z = (.ok (), w) ∧ w.getImaginaryPart = .ok a ∧ w.getRealPart = z.getRealPart :=
  ⟨⟨_, ((Dsp.Complex.C58_set a z).1 ha).1, rfl, rfl⟩, ⟨_, ((Dsp.Complex.C58_set a z).1 ha).2, rfl, rfl⟩⟩

/-! ## Cases -/

/-- The number `a + bi` of two literals that binary32 has. -/
theorem dsp_case {a b : ℚ} (ha : F32.fl (.fin a) = ⟨.fin a⟩) (hb : F32.fl (.fin b) = ⟨.fin b⟩)
    (fa : Finite (lit a : F32)) (fb : Finite (lit b : F32)) :
    Dsp.Complex.Holds (⟨lit a, lit b⟩ : Dsp.Complex F32) ⟨a, b⟩ ∧
    Dsp.Complex.Holds (F := F32T) ⟨lit a, lit b⟩ ⟨a, b⟩ ∧
    TempDsp.Complex.Holds (⟨lit a, lit b⟩ : TempDsp.Complex F32) ⟨a, b⟩ :=
  ⟨⟨⟨fa, fb⟩, _root_.Complex.ext (lit_val a ha) (lit_val b hb)⟩, ⟨⟨fa, fb⟩, _root_.Complex.ext (lit_val a ha) (lit_val b hb)⟩,
    ⟨⟨fa, fb⟩, _root_.Complex.ext (lit_val a ha) (lit_val b hb)⟩⟩

/-- Sums, products and quotients of `1 + 2i` and `3 - i`, and the modulus of `3 + 4i`, in both crates. -/
example : ∃ z1 z2 z3 : Dsp.Complex F32, ∃ y1 y2 : TempDsp.Complex F32,
    z1.Holds ⟨1, 2⟩ ∧ z2.Holds ⟨3, -1⟩ ∧ y1.Holds ⟨1, 2⟩ ∧ y2.Holds ⟨3, -1⟩ ∧
    (∃ w c, Dsp.Complex.add z1 z2 z1 = (.ok (), w) ∧ w.Holds c ∧ ‖c - ⟨4, 1⟩‖ ≤ 1 / 10 ^ 6) ∧
    (∃ w c, TempDsp.Complex.mul y1 y2 y1 = (.ok (), w) ∧ TempDsp.Complex.mulInPlace y2 y1 = (.ok (), w) ∧ w.Holds c ∧
      ‖c - ⟨5, 5⟩‖ ≤ 3 / 10 ^ 6) ∧
    (∃ w c, Dsp.Complex.div z1 z2 z1 = (.ok (), w) ∧ w.Holds c ∧ ‖c - ⟨1 / 10, 7 / 10⟩‖ ≤ 1 / 10 ^ 6) ∧
    ∃ r, Dsp.Complex.calculateModule z3 = .ok r ∧ |⟪r⟫ - 5| ≤ 1 / 10 ^ 6 := by
  have q1 := dsp_case (a := 1) (b := 2) (by decide +kernel) (by decide +kernel) (by decide +kernel) (by decide +kernel)
  have q2 := dsp_case (a := 3) (b := -1) (by decide +kernel) (by decide +kernel) (by decide +kernel) (by decide +kernel)
  have q3 := dsp_case (a := 3) (b := 4) (by decide +kernel) (by decide +kernel) (by decide +kernel) (by decide +kernel)
  push_cast at q1 q2 q3
  have n1 : ‖(⟨1, 2⟩ : ℂ)‖ ≤ 3 := (cpx_norm_le (w := ⟨1, 2⟩) (e := 2) (by norm_num) (by norm_num)).trans (by norm_num)
  have n2 : ‖(⟨3, -1⟩ : ℂ)‖ ≤ 5 := (cpx_norm_le (w := ⟨3, -1⟩) (e := 3) (by norm_num) (by norm_num)).trans (by norm_num)
  have n3 : ‖(⟨3, 4⟩ : ℂ)‖ = 5 := by
    rw [_root_.Complex.norm_def, _root_.Complex.normSq_apply, Real.sqrt_eq_iff_mul_self_eq (by norm_num) (by norm_num)]
    norm_num
  have p0 := norm_nonneg (⟨1, 2⟩ : ℂ)
  have p : ‖(⟨1, 2⟩ : ℂ)‖ * ‖(⟨3, -1⟩ : ℂ)‖ ≤ 15 := (mul_le_mul n1 n2 (norm_nonneg _) (by norm_num)).trans (by norm_num)
  have s : (⟨1, 2⟩ : ℂ) + ⟨3, -1⟩ = ⟨4, 1⟩ := by apply _root_.Complex.ext <;> norm_num
  have t : (⟨1, 2⟩ : ℂ) * ⟨3, -1⟩ = ⟨5, 5⟩ := by apply _root_.Complex.ext <;> norm_num
  have u : (⟨1, 2⟩ : ℂ) / ⟨3, -1⟩ = ⟨1 / 10, 7 / 10⟩ := by
    apply _root_.Complex.ext <;> norm_num [_root_.Complex.div_re, _root_.Complex.div_im, _root_.Complex.normSq_apply]
  have n4 : ‖(⟨4, 1⟩ : ℂ)‖ ≤ 6 := (cpx_norm_le (w := ⟨4, 1⟩) (e := 4) (by norm_num) (by norm_num)).trans (by norm_num)
  have n5 : ‖(⟨1 / 10, 7 / 10⟩ : ℂ)‖ ≤ 1 :=
    (cpx_norm_le (w := ⟨1 / 10, 7 / 10⟩) (e := 7 / 10) (by norm_num [abs_le]) (by norm_num [abs_le])).trans (by norm_num)
  have hη := rη_le
  refine ⟨_, _, ⟨lit 3, lit 4⟩, _, _, q1.1, q2.1, q1.2.2, q2.2.2, ?_, ?_, ?_, ?_⟩
  · obtain ⟨w, c, e, h, d⟩ := (Dsp.Complex.C121_ring _ q1.1 q2.1).1 (by rw [s]; exact n4.trans (by norm_num))
    refine ⟨w, c, e, h, ?_⟩
    rw [s] at d
    unfold ru at d
    norm_num at *
    linarith
  · obtain ⟨w, c, e, e', h, d⟩ := (TempDsp.Complex.C121_temp_ring _ q1.2.2 q2.2.2).2.2 (p.trans (by norm_num))
    refine ⟨w, c, e, e', h, ?_⟩
    rw [t] at d
    unfold ru at d
    norm_num at *
    linarith
  · rcases Dsp.Complex.C121_div _ q1.1 q2.1 (n1.trans (by norm_num)) (n2.trans (by norm_num)) with ⟨_, k, _⟩ | ⟨w, c, e, h, _, d⟩
    · norm_num at k
    · refine ⟨w, c, e, h, ?_⟩
      rw [u] at d
      unfold ru at d
      norm_num at *
      linarith
  · rcases Dsp.Complex.C121_module q3.1 (by rw [n3]; norm_num) with ⟨r, e, _, _, k⟩ | ⟨r, e, _, d, _⟩
    · rw [n3] at k; norm_num at k
    · rw [n3] at d
      refine ⟨r, e, d.trans ?_⟩
      unfold ru; norm_num

/-- `1` divided by `2^70` is stored as zero, and the modulus of `2^70` is refused. -/
example : ∃ z1 z2 : Dsp.Complex F32, z1.Holds ⟨1, 0⟩ ∧ z2.Holds ⟨2 ^ 70, 0⟩ ∧
    (∃ w, Dsp.Complex.div z1 z2 z1 = (.ok (), w) ∧ w.Holds 0) ∧ Dsp.Complex.calculateModule z2 = .error (.err .Inf) := by
  have q1 := dsp_case (a := 1) (b := 0) (by decide +kernel) (by decide +kernel) (by decide +kernel) (by decide +kernel)
  have q2 := dsp_case (a := 2 ^ 70) (b := 0) (by decide +kernel) (by decide +kernel) (by decide +kernel) (by decide +kernel)
  push_cast at q1 q2
  have n1 : ‖(⟨1, 0⟩ : ℂ)‖ ≤ 2 := (cpx_norm_le (w := ⟨1, 0⟩) (e := 1) (by norm_num) (by norm_num)).trans (by norm_num)
  have n2 : ‖(⟨2 ^ 70, 0⟩ : ℂ)‖ ≤ 2 ^ 71 :=
    (cpx_norm_le (w := ⟨2 ^ 70, 0⟩) (e := 2 ^ 70) (by norm_num) (by norm_num)).trans (by norm_num)
  refine ⟨_, _, q1.1, q2.1, Dsp.Complex.C121_div_zero _ q1.1 q2.1 (n2.trans (by norm_num)) (.inl (by norm_num))
    ((mul_le_mul n1 n2 (norm_nonneg _) (by norm_num)).trans (by norm_num)), Dsp.Complex.C121_module_inf q2.1 (.inl (by norm_num))⟩

/-- With accurate sines: `2 e^i` from polar form, and the exponential of `i`. -/
example : (∃ w c, Dsp.Complex.convertFromPolar (F := F32T) (lit 2) (lit 1) ⟨lit 0, lit 0⟩ = (.ok (), w) ∧ w.Holds c ∧
      ‖c - 2 * _root_.Complex.exp _root_.Complex.I‖ ≤ 1 / 10 ^ 6) ∧
    ∃ w c, Dsp.Complex.expo (F := F32T) ⟨lit 0, lit 1⟩ = (.ok (), w) ∧ w.Holds c ∧
      ‖c - _root_.Complex.exp _root_.Complex.I‖ ≤ 1 / 10 ^ 6 := by
  have v : ∀ k : ℚ, F32.fl (.fin k) = ⟨.fin k⟩ → ⟪(lit k : F32T)⟫ = (k : ℝ) := lit_val
  have f : ∀ k : ℚ, Finite (lit k : F32) → Finite (lit k : F32T) := fun _ h => h
  have v2 := v 2 (by decide +kernel)
  have v1 := v 1 (by decide +kernel)
  have hη := rη_le
  push_cast at v1 v2
  constructor
  · obtain ⟨w, c, e, h, d⟩ := Dsp.Complex.C121_polar (F := F32T) (r := lit 2) (θ := lit 1) (f 2 (by decide +kernel))
      (by rw [v2]; norm_num) (f 1 (by decide +kernel)) ⟨lit 0, lit 0⟩
    refine ⟨w, c, e, h, ?_⟩
    rw [v2, v1] at d
    unfold ru at d
    norm_num at *
    linarith
  · have q := (dsp_case (a := 0) (b := 1) (by decide +kernel) (by decide +kernel) (by decide +kernel) (by decide +kernel)).2.1
    push_cast at q
    have e0 : Scalar.exp (lit 0 : F32T) = (lit 1 : F32T) := by
      show Scalar.exp (lit 0 : F32) = (lit 1 : F32)
      decide +kernel
    have hI : (⟨0, 1⟩ : ℂ) = _root_.Complex.I := rfl
    have hn : ‖_root_.Complex.exp _root_.Complex.I‖ = 1 := by rw [_root_.Complex.norm_exp]; simp
    rcases Dsp.Complex.C121_expo (κ := 0) q (by rw [e0]; exact f 1 (by decide +kernel)) le_rfl (by norm_num)
      (by rw [e0, v1]; norm_num) (by norm_num) with ⟨w, e, _, k⟩ | ⟨w, c, e, h, _, d⟩
    · rw [hI, hn] at k; norm_num at k
    · refine ⟨w, c, e, h, ?_⟩
      rw [hI, hn] at d
      unfold ru at d
      norm_num at *
      linarith

end Verif
