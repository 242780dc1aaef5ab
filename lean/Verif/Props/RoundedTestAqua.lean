import Verif.Props.RoundedTestAr
import Verif.Props.RoundedMargMove

/-
C133: the AQUA filter of the test of `open_ahrs/src/lib.rs` in binary32.
-/

set_option linter.unusedSectionVars false
set_option linter.unusedSimpArgs false

namespace Verif
open Scalar Finset Quaternion

variable {F : Type} [Scalar F] [R : Rounded F]

namespace AhrsTest
open Ahrs (maxStep)
open Aqua (accQ magPos lerpQ unitOf predQ unrot dir)

/-! ### How the corrections depend on what they correct -/

theorem pure_comps {g h : Fin 3 → ℝ} {e : ℝ} (he : ‖pureQ g - pureQ h‖ ≤ e) :
    |g 0 - h 0| ≤ e ∧ |g 1 - h 1| ≤ e ∧ |g 2 - h 2| ≤ e ∧
      √((g 0 - h 0) * (g 0 - h 0) + (g 1 - h 1) * (g 1 - h 1)) ≤ e := by
  have e0 : 0 ≤ e := (norm_nonneg _).trans he
  have hN : (g 0 - h 0) ^ 2 + (g 1 - h 1) ^ 2 + (g 2 - h 2) ^ 2 ≤ e ^ 2 := by
    have : ‖pureQ g - pureQ h‖ ^ 2 = (g 0 - h 0) ^ 2 + (g 1 - h 1) ^ 2 + (g 2 - h 2) ^ 2 := by
      rw [quat_norm_sq]
      simp [pureQ]
    rw [← this]
    gcongr
  have s0 := sq_nonneg (g 0 - h 0)
  have s1 := sq_nonneg (g 1 - h 1)
  have s2 := sq_nonneg (g 2 - h 2)
  exact ⟨abs_le_of_sq_le_sq (by linarith) e0, abs_le_of_sq_le_sq (by linarith) e0, abs_le_of_sq_le_sq (by linarith) e0,
    Real.sqrt_le_iff.mpr ⟨e0, by nlinarith⟩⟩

/-- The quotient in the correction of the tilt. -/
theorem quot_lip {x x0 l l0 e : ℝ} (hx : |x - x0| ≤ e) (h0 : |x0| ≤ 5) (hl : 19 / 10 ≤ l) (hl0 : 2 ≤ l0) (hd : |l - l0| ≤ e / 7) :
    |x / (2 * l) - x0 / (2 * l0)| ≤ e / 2 := by
  have e0 : 0 ≤ e := (abs_nonneg _).trans hx
  have e1 : x / (2 * l) - x0 / (2 * l0) = (x - x0) / (2 * l) + x0 * (l0 - l) / (2 * l * l0) := by
    field_simp
    ring
  rw [e1]
  refine (abs_add_le _ _).trans ?_
  rw [abs_div, abs_div, abs_mul x0, abs_of_pos (by linarith : 0 < 2 * l), abs_of_pos (by positivity : 0 < 2 * l * l0), abs_sub_comm l0 l]
  have a1 : |x - x0| / (2 * l) ≤ e / (2 * (19 / 10)) := by gcongr
  have a2 : |x0| * |l - l0| / (2 * l * l0) ≤ 5 * (e / 7) / (2 * (19 / 10) * 2) := by gcongr
  have b1 : e / (2 * (19 / 10)) = 5 / 19 * e := by ring
  have b2 : 5 * (e / 7) / (2 * (19 / 10) * 2) = 25 / 266 * e := by ring
  rw [b1] at a1
  rw [b2] at a2
  linarith

theorem accQ_lip {g h : Fin 3 → ℝ} {e : ℝ} (he : ‖pureQ g - pureQ h‖ ≤ e) (e1 : e ≤ 1 / 10) (h2 : h 2 ≤ -7) (h0 : |h 0| ≤ 5)
    (h1 : |h 1| ≤ 5) : ‖accQ g - accQ h‖ ≤ e ∧ g 2 ≤ -(69 / 10) ∧ 19 / 10 ≤ √((1 - g 2) / 2) := by
  obtain ⟨d0, d1, d2, -⟩ := pure_comps he
  have e0 : 0 ≤ e := (abs_nonneg _).trans d0
  have hg2 : g 2 ≤ -(69 / 10) := by linarith [(abs_le.mp d2).2]
  obtain ⟨l, hl⟩ : ∃ l, l = √((1 - g 2) / 2) := ⟨_, rfl⟩
  obtain ⟨k, hk⟩ : ∃ k, k = √((1 - h 2) / 2) := ⟨_, rfl⟩
  have l1 : 19 / 10 ≤ l := by rw [hl]; exact Real.le_sqrt_of_sq_le (by norm_num; linarith)
  have k1 : 2 ≤ k := by rw [hk]; exact Real.le_sqrt_of_sq_le (by norm_num; linarith)
  have hll : l ^ 2 = (1 - g 2) / 2 := by rw [hl]; exact Real.sq_sqrt (by linarith)
  have hkk : k ^ 2 = (1 - h 2) / 2 := by rw [hk]; exact Real.sq_sqrt (by linarith)
  have hd : |l - k| ≤ e / 7 := by
    have e2 : (l - k) * (l + k) = -(g 2 - h 2) / 2 := by linear_combination hll - hkk
    have e3 : |l - k| * (l + k) ≤ e / 2 := by
      rw [← abs_of_pos (show 0 < l + k by linarith), ← abs_mul, e2, abs_div, abs_neg, abs_two]
      linarith
    have := abs_nonneg (l - k)
    nlinarith
  refine ⟨?_, hg2, by rw [← hl]; exact l1⟩
  have q1 := quot_lip d1 h1 l1 k1 hd
  have q0 := quot_lip (x := -g 0) (x0 := -h 0) (by rw [← neg_sub', abs_neg]; exact d0) (by rw [abs_neg]; exact h0) l1 k1 hd
  have e4 : accQ g - accQ h = mkQ (l - k) (g 1 / (2 * l) - h 1 / (2 * k)) (-g 0 / (2 * l) - -h 0 / (2 * k)) 0 := by
    unfold accQ
    rw [if_pos (by linarith), if_pos (by linarith), ← hl, ← hk]
    apply Quaternion.ext <;> simp
  rw [e4, norm_mkQ]
  refine Real.sqrt_le_iff.mpr ⟨e0, ?_⟩
  have s1 := sq_le_sq' (abs_le.mp hd).1 (abs_le.mp hd).2
  have s2 := sq_le_sq' (abs_le.mp q1).1 (abs_le.mp q1).2
  have s3 := sq_le_sq' (abs_le.mp q0).1 (abs_le.mp q0).2
  nlinarith [sq_nonneg e]

theorem unitOf_lip {X Y : Quaternion ℝ} {D : ℝ} (h : ‖X - Y‖ ≤ D) (hY : 1 ≤ ‖Y‖) (hD : D ≤ 1 / 2) :
    ‖unitOf X - unitOf Y‖ ≤ 2 * D ∧ ‖unitOf X‖ = 1 ∧ ‖unitOf Y‖ = 1 := by
  have hX : 1 / 2 ≤ ‖X‖ := by
    have := norm_sub_norm_le Y X
    rw [norm_sub_rev] at this
    linarith
  have x1 : epsilon ℝ < ‖X‖ := lt_of_lt_of_le Aqua.eps_lt_half hX
  have y1 : epsilon ℝ < ‖Y‖ := lt_of_lt_of_le AR.eps_lt_one hY
  refine ⟨?_, Aqua.unitOf_norm x1, Aqua.unitOf_norm y1⟩
  unfold Aqua.unitOf
  rw [if_pos x1, if_pos y1]
  refine (normalised_dist (norm_pos_iff.mp (by linarith)) (norm_pos_iff.mp (by linarith))).trans ?_
  rw [div_le_iff₀ (by linarith)]
  have d0 : 0 ≤ D := (norm_nonneg _).trans h
  nlinarith

theorem lerpQ_lip {P Q : Quaternion ℝ} {e α : ℝ} (h : ‖P - Q‖ ≤ e) (he : e ≤ 1) (hQ : 1 ≤ Q.re) (hQ4 : ‖Q - 1‖ ≤ 4)
    (hα : |α - 1 / 100| ≤ 1 / 10 ^ 8) :
    ‖lerpQ α P - lerpQ (1 / 100) Q‖ ≤ 2002 / 10 ^ 5 * e + 8 / 10 ^ 8 ∧ ‖lerpQ α P‖ = 1 ∧ ‖lerpQ (1 / 100) Q‖ = 1 := by
  have e0 : 0 ≤ e := (norm_nonneg _).trans h
  have ha : |α| ≤ 1001 / 10 ^ 5 := (le_of_dist (a := 1 / 100) (by norm_num) hα).trans (by norm_num)
  have e1 : ((1 - α) • 1 + α • P : Quaternion ℝ) - ((1 - 1 / 100 : ℝ) • 1 + (1 / 100 : ℝ) • Q) = α • (P - Q) + (α - 1 / 100) • (Q - 1) := by
    apply Quaternion.ext <;> simp [Quaternion.re_one, Quaternion.imI_one, Quaternion.imJ_one, Quaternion.imK_one] <;> ring
  have e2 : ‖((1 - α) • 1 + α • P : Quaternion ℝ) - ((1 - 1 / 100 : ℝ) • 1 + (1 / 100 : ℝ) • Q)‖ ≤
      1001 / 10 ^ 5 * e + 1 / 10 ^ 8 * 4 := by
    rw [e1]
    refine (norm_add_le _ _).trans ?_
    rw [norm_smul, norm_smul, Real.norm_eq_abs, Real.norm_eq_abs]
    gcongr
  have e3 : 1 ≤ ‖((1 - 1 / 100 : ℝ) • 1 + (1 / 100 : ℝ) • Q : Quaternion ℝ)‖ := by
    refine le_trans ?_ (Aqua.abs_re_le _)
    refine le_trans ?_ (le_abs_self _)
    simp [Quaternion.re_one]
    linarith
  obtain ⟨k1, k2, k3⟩ := unitOf_lip e2 e3 (by norm_num; linarith)
  exact ⟨k1.trans (by norm_num; linarith), k2, k3⟩

theorem unrot_lip {P Q : Quaternion ℝ} {g h : Fin 3 → ℝ} {e d c : ℝ} (hP : ‖P‖ = 1) (hQ : ‖Q‖ = 1) (he : ‖P - Q‖ ≤ e)
    (hd : ‖pureQ g - pureQ h‖ ≤ d) (hc : ‖pureQ h‖ ≤ c) : ‖pureQ (unrot P g) - pureQ (unrot Q h)‖ ≤ d + 2 * e * c := by
  have e0 : 0 ≤ e := (norm_nonneg _).trans he
  rw [Aqua.unrot_eq hP, Aqua.unrot_eq hQ]
  have e1 : star P * pureQ g * P - star Q * pureQ h * Q =
      star P * (pureQ g - pureQ h) * P + (star P * pureQ h * (P - Q) + star (P - Q) * pureQ h * Q) := by
    rw [star_sub]
    noncomm_ring
  rw [e1]
  refine (norm_add_le _ _).trans ?_
  have a1 : ‖star P * (pureQ g - pureQ h) * P‖ ≤ d := by
    rw [norm_mul, norm_mul, norm_star, hP, one_mul, mul_one]
    exact hd
  have a2 : ‖star P * pureQ h * (P - Q)‖ ≤ c * e := by
    rw [norm_mul, norm_mul, norm_star, hP, one_mul]
    exact mul_le_mul hc he (norm_nonneg _) ((norm_nonneg _).trans hc)
  have a3 : ‖star (P - Q) * pureQ h * Q‖ ≤ e * c := by
    rw [norm_mul, norm_mul, norm_star, hQ, mul_one]
    exact mul_le_mul he hc (norm_nonneg _) e0
  have := norm_add_le (star P * pureQ h * (P - Q)) (star (P - Q) * pureQ h * Q)
  linarith

theorem dir_lip {m k : Fin 3 → ℝ} {e : ℝ} (h : ‖pureQ m - pureQ k‖ ≤ e) (hk : ‖pureQ k‖ = 48) (he : e ≤ 1) :
    ‖pureQ (dir m) - pureQ (dir k)‖ ≤ e / 24 ∧ ‖pureQ (dir k)‖ = 1 := by
  have hm : 40 ≤ ‖pureQ m‖ := by
    have := norm_sub_norm_le (pureQ k) (pureQ m)
    rw [norm_sub_rev, hk] at this
    linarith
  have hdir : ∀ u : Fin 3 → ℝ, 40 ≤ ‖pureQ u‖ → pureQ (dir u) = ‖pureQ u‖⁻¹ • pureQ u := fun u hu => by
    have : epsilon ℝ < norm3 u := by
      rw [← norm_pureQ]
      linarith [AR.eps_lt_one]
    unfold dir pureQ
    simp only [if_pos this]
    rw [mkQ_smul, ← norm_pureQ]
    simp [div_eq_inv_mul, pureQ]
  rw [hdir m hm, hdir k (by linarith)]
  refine ⟨(normalised_dist (norm_pos_iff.mp (by linarith)) (norm_pos_iff.mp (by linarith))).trans ?_, ?_⟩
  · rw [hk]
    linarith
  · rw [norm_smul, norm_inv, norm_norm, hk]
    norm_num

/-! ### The exact corrections -/

theorem acc_exact {a : Fin 3 → ℝ} {ψ θ : ℝ} (h0 : a 0 = -(981 / 100) * Real.sin (2 * θ)) (h1 : a 1 = 0)
    (h2 : a 2 = -(981 / 100) * Real.cos (2 * θ)) (hp : 0 < ψ - θ) (hl : ψ - θ ≤ 1 / 5) :
    unrot (yQ ψ) a 2 ≤ -7 ∧ |unrot (yQ ψ) a 0| ≤ 5 ∧ |unrot (yQ ψ) a 1| ≤ 5 ∧ 1 ≤ (accQ (unrot (yQ ψ) a)).re ∧
      ‖accQ (unrot (yQ ψ) a) - 1‖ ≤ 4 ∧ ∃ μ, 0 < μ ∧ μ ≤ (ψ - θ) / 10 ∧ lerpQ (1 / 100) (accQ (unrot (yQ ψ) a)) = yQ (-μ) := by
  obtain ⟨g0, g1, g2⟩ := unrot_y ψ a h1
  obtain ⟨μ, m1, m2, m3⟩ := acc_y h0 h1 h2 hp hl
  obtain ⟨κ, hκ⟩ : ∃ κ, κ = ψ - θ := ⟨_, rfl⟩
  rw [← hκ] at hp hl m2 ⊢
  have e0 : unrot (yQ ψ) a 0 = 981 / 100 * Real.sin (2 * κ) := by
    rw [g0, h0, h2, show 2 * κ = 2 * ψ - 2 * θ by rw [hκ]; ring, Real.sin_sub]
    ring
  have e2 : unrot (yQ ψ) a 2 = -(981 / 100) * Real.cos (2 * κ) := by
    rw [g2, h0, h2, show 2 * κ = 2 * ψ - 2 * θ by rw [hκ]; ring, Real.cos_sub]
    ring
  have hs1 : Real.sin (2 * κ) ≤ 2 * κ := Real.sin_le (by linarith)
  have hs0 : 0 < Real.sin (2 * κ) := Real.sin_pos_of_pos_of_lt_pi (by linarith) (by linarith [Real.pi_gt_three])
  have hc : 9 / 10 ≤ Real.cos (2 * κ) := by
    have := Real.one_sub_sq_div_two_le_cos (x := 2 * κ)
    nlinarith
  have hc1 := Real.cos_le_one (2 * κ)
  have f2 : unrot (yQ ψ) a 2 ≤ -7 := by rw [e2]; linarith
  have f0 : |unrot (yQ ψ) a 0| ≤ 5 := by rw [e0, abs_of_pos (by positivity)]; linarith
  have hre : (accQ (unrot (yQ ψ) a)).re = √((1 - unrot (yQ ψ) a 2) / 2) := Aqua.accQ_re (by linarith)
  obtain ⟨L, hL⟩ : ∃ L, L = √((1 - unrot (yQ ψ) a 2) / 2) := ⟨_, rfl⟩
  have hL2 : 2 ≤ L := by
    rw [hL]
    exact Real.le_sqrt_of_sq_le (by linarith)
  have hL3 : L ≤ 3 := by
    rw [hL]
    exact Real.sqrt_le_iff.mpr ⟨by norm_num, by rw [e2]; linarith⟩
  refine ⟨f2, f0, by rw [g1]; norm_num, by rw [hre, ← hL]; linarith, ?_, μ, m1, m2, ?_⟩
  · have e4 : accQ (unrot (yQ ψ) a) - 1 = mkQ (L - 1) 0 (-unrot (yQ ψ) a 0 / (2 * L)) 0 := by
      unfold Aqua.accQ
      rw [if_pos (by linarith), ← hL, g1]
      apply Quaternion.ext <;> simp [Quaternion.re_one, Quaternion.imI_one, Quaternion.imJ_one, Quaternion.imK_one]
    rw [e4, norm_mkQ]
    refine Real.sqrt_le_iff.mpr ⟨by norm_num, ?_⟩
    have q : |-unrot (yQ ψ) a 0 / (2 * L)| ≤ 2 := by
      rw [abs_div, abs_neg, abs_of_pos (by linarith : 0 < 2 * L), div_le_iff₀ (by linarith)]
      linarith
    have := sq_le_sq' (abs_le.mp q).1 (abs_le.mp q).2
    nlinarith
  · rcases m3 with ⟨-, h⟩ | ⟨h, -⟩
    · exact h.symm
    · rw [hre, ← hL] at h
      linarith

theorem mag_exact {m : Fin 3 → ℝ} {b ι θ : ℝ} (h0 : m 0 = 48 * Real.cos (ι + 2 * θ)) (h1 : m 1 = 0)
    (h2 : m 2 = -(48 * Real.sin (ι + 2 * θ))) (hb : |ι + 2 * θ - 2 * b| ≤ 1) :
    ‖pureQ m‖ = 48 ∧ 1 / 2 ≤ unrot (yQ b) (dir m) 0 ∧ magPos (unrot (yQ b) (dir m) 0) (unrot (yQ b) (dir m) 1) = 1 := by
  have hn : norm3 m = 48 := by
    rw [norm3, h0, h1, h2, show (48 * Real.cos (ι + 2 * θ)) ^ 2 + 0 ^ 2 + (-(48 * Real.sin (ι + 2 * θ))) ^ 2 = 48 ^ 2 by
      linear_combination 48 ^ 2 * Real.sin_sq_add_cos_sq (ι + 2 * θ)]
    exact Real.sqrt_sq (by norm_num)
  have hd : ∀ i, Aqua.dir m i = m i / 48 := fun i => by
    unfold Aqua.dir
    rw [hn, if_pos (by linarith [AR.eps_lt_one])]
  obtain ⟨g0, g1, -⟩ := unrot_y b (Aqua.dir m) (by rw [hd, h1]; norm_num)
  have e0 : Aqua.unrot (yQ b) (Aqua.dir m) 0 = Real.cos (ι + 2 * θ - 2 * b) := by
    rw [g0, hd, hd, h0, h2, Real.cos_sub]
    ring
  have hx : 1 / 2 ≤ Real.cos (ι + 2 * θ - 2 * b) := by
    have := Real.one_sub_sq_div_two_le_cos (x := ι + 2 * θ - 2 * b)
    have h2 := sq_le_sq' (abs_le.mp hb).1 (abs_le.mp hb).2
    linarith
  refine ⟨by rw [norm_pureQ, hn], by rw [e0]; exact hx, ?_⟩
  rw [g1, e0]
  generalize Real.cos (ι + 2 * θ - 2 * b) = x at hx
  have hr : √(x * x + 0 * 0) = x := by rw [mul_zero, add_zero, Real.sqrt_mul_self (by linarith)]
  unfold Aqua.magPos
  rw [hr, show x * x + 0 * 0 + x * x = 2 * (x * x + 0 * 0) by ring, div_self (Real.sqrt_pos.mpr (by nlinarith)).ne',
    zero_div]
  exact mkQ_one

end AhrsTest
end Verif
