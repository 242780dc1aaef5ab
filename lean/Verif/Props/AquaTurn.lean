import Verif.Props.AquaSettle
import Verif.Props.ArMotion

/-
The AQUA filter in the MARG mode while the sensor turns (C116).

`aqua.rs::update` corrects the attitude with the accelerometer and the magnetometer so that it takes vectors from the fixed
frame to the frame of the sensor, but predicts it with `A + τ/2 A ω`, the rule for attitudes that take vectors from the
frame of the sensor to the fixed frame.  For a sensor that turns, the prediction therefore goes away from where the
corrections pull.  Here this is made exact for a turn about the vertical axis.
-/

set_option linter.unusedSectionVars false
set_option linter.unusedSimpArgs false

namespace Verif
open Scalar
namespace Aqua

/-- The attitude with the heading `ψ` and no tilt. -/
noncomputable def yaw (ψ : ℝ) : Quaternion ℝ := mkQ (Real.cos (ψ / 2)) 0 0 (Real.sin (ψ / 2))

theorem yaw_mul (a b : ℝ) : yaw a * yaw b = yaw (a + b) := by
  unfold yaw
  rw [add_div, Real.cos_add, Real.sin_add]
  apply Quaternion.ext <;> simp [Quaternion.re_mul, Quaternion.imI_mul, Quaternion.imJ_mul, Quaternion.imK_mul]
  ring

theorem yaw_normSq (a : ℝ) : Quaternion.normSq (yaw a) = 1 := by
  unfold yaw
  rw [normSq_mkQ]
  have := Real.cos_sq_add_sin_sq (a / 2)
  linarith

theorem yaw_norm (a : ℝ) : ‖yaw a‖ = 1 := by
  rw [quat_norm, yaw_normSq, Real.sqrt_one]

theorem yaw_star (a : ℝ) : star (yaw a) = yaw (-a) := by
  unfold yaw
  rw [neg_div, Real.cos_neg, Real.sin_neg]
  apply Quaternion.ext <;> simp

/-- A quaternion about the third axis, normalised. -/
theorem unitOf_yaw {c r : ℝ} (hc : 0 < c) (hn1 : epsilon ℝ < ‖mkQ c 0 0 (c * r)‖) :
    unitOf (mkQ c 0 0 (c * r)) = yaw (2 * Real.arctan r) := by
  have hn : ‖mkQ c 0 0 (c * r)‖ = c * √(1 + r ^ 2) := by
    rw [norm_mkQ, show c ^ 2 + 0 ^ 2 + 0 ^ 2 + (c * r) ^ 2 = c ^ 2 * (1 + r ^ 2) by ring, Real.sqrt_mul (by positivity),
      Real.sqrt_sq hc.le]
  have hr : 0 < √(1 + r ^ 2) := Real.sqrt_pos.mpr (by positivity)
  unfold unitOf
  rw [if_pos hn1, hn, mkQ_smul]
  unfold yaw
  rw [mul_div_cancel_left₀ _ two_ne_zero, Real.cos_arctan, Real.sin_arctan]
  congr 1
  · field_simp
  · ring
  · ring
  · field_simp

/-- The prediction turns the heading. -/
theorem predQ_yaw (ψ ω τ : ℝ) : predQ (yaw ψ) (mkQ 0 0 0 ω) τ = yaw (ψ + 2 * Real.arctan (ω * τ / 2)) := by
  have e : yaw ψ + (τ / 2) • (yaw ψ * mkQ 0 0 0 ω) = yaw ψ * mkQ 1 0 0 (1 * (ω * τ / 2)) := by
    apply Quaternion.ext <;> simp [yaw, Quaternion.re_mul, Quaternion.imI_mul, Quaternion.imJ_mul, Quaternion.imK_mul] <;> ring
  have hn : epsilon ℝ < ‖mkQ 1 0 0 (1 * (ω * τ / 2))‖ := by
    refine lt_of_lt_of_le AR.eps_lt_one ?_
    rw [norm_mkQ, Real.one_le_sqrt]
    nlinarith [sq_nonneg (1 * (ω * τ / 2))]
  have h1 := unitOf_yaw one_pos hn
  unfold predQ
  rw [e]
  unfold unitOf at h1 ⊢
  rw [norm_mul, yaw_norm, one_mul]
  rw [if_pos hn] at h1 ⊢
  rw [← mul_smul_comm, h1, yaw_mul]

/-- A vector with the horizontal direction `φ`, seen from the heading `ψ`. -/
theorem unrot_yaw (ψ b φ z : ℝ) : unrot (yaw ψ) ![b * Real.cos φ, b * Real.sin φ, z] =
    ![b * Real.cos (φ - ψ), b * Real.sin (φ - ψ), z] := by
  have h1 := Real.sin_sq_add_cos_sq (ψ / 2)
  have h2 : Real.cos ψ = 2 * Real.cos (ψ / 2) ^ 2 - 1 := by rw [← Real.cos_two_mul]; ring_nf
  have h3 : Real.sin ψ = 2 * Real.sin (ψ / 2) * Real.cos (ψ / 2) := by rw [← Real.sin_two_mul]; ring_nf
  unfold yaw
  rw [Real.cos_sub, Real.sin_sub, h2, h3]
  generalize Real.cos (ψ / 2) = c at *
  generalize Real.sin (ψ / 2) = w at *
  have hw : w ^ 2 = 1 - c ^ 2 := by linarith
  funext k
  fin_cases k <;> simp [unrot, dcmOf, tbl]
  · linear_combination -(b * Real.cos φ) * h1
  · linear_combination -2 * (b * Real.sin φ) * h1

/-- The quaternion of the field. -/
theorem magPos_yaw {b e : ℝ} (hb : 0 < b) (he : |e| < Real.pi) : magPos (b * Real.cos e) (b * Real.sin e) = yaw e := by
  have hc : 0 < Real.cos (e / 2) := by
    rw [abs_lt] at he
    exact Real.cos_pos_of_mem_Ioo ⟨by linarith, by linarith⟩
  have h2 : Real.cos e = 2 * Real.cos (e / 2) ^ 2 - 1 := by rw [← Real.cos_two_mul]; ring_nf
  have h3 : Real.sin e = 2 * Real.sin (e / 2) * Real.cos (e / 2) := by rw [← Real.sin_two_mul]; ring_nf
  have e1 : b * Real.cos e * (b * Real.cos e) + b * Real.sin e * (b * Real.sin e) = b ^ 2 := by
    have := Real.cos_sq_add_sin_sq e
    linear_combination b ^ 2 * this
  have e2 : √(b ^ 2) = b := Real.sqrt_sq hb.le
  have e3 : √(b ^ 2 + b * Real.cos e * b) = √2 * (b * Real.cos (e / 2)) := by
    rw [h2, show b ^ 2 + b * (2 * Real.cos (e / 2) ^ 2 - 1) * b = 2 * (b * Real.cos (e / 2)) ^ 2 by ring,
      Real.sqrt_mul (by norm_num), Real.sqrt_sq (by positivity)]
  have h22 : √2 * √2 = (2 : ℝ) := Real.mul_self_sqrt (by norm_num)
  unfold magPos yaw
  rw [e1, e2, e3, Real.sqrt_mul (by norm_num), e2, h3]
  congr 1
  · field_simp
  · rw [← mul_assoc (√2) (√2), h22]
    field_simp

/-- The angle of the linear interpolation with the weight `γ` between no turn and a turn of `x`. -/
noncomputable def pull (γ x : ℝ) : ℝ := 2 * Real.arctan (γ * Real.sin (x / 2) / (1 - γ + γ * Real.cos (x / 2)))

variable {γ x y δ X β : ℝ}

theorem half_cos (hx : |x| < Real.pi) : 0 < Real.cos (x / 2) := by
  rw [abs_lt] at hx
  exact Real.cos_pos_of_mem_Ioo ⟨by linarith, by linarith⟩

theorem pull_den (h0 : 0 ≤ γ) (h1 : γ ≤ 1) (hx : |x| < Real.pi) : 0 < 1 - γ + γ * Real.cos (x / 2) := by
  have := half_cos hx
  rcases h0.eq_or_lt with rfl | h
  · simp
  · have := mul_pos h this
    linarith

theorem pull_neg (γ x : ℝ) : pull γ (-x) = -pull γ x := by
  unfold pull
  rw [neg_div, Real.sin_neg, Real.cos_neg, mul_neg, neg_div, Real.arctan_neg, mul_neg]

theorem pull_add (h0 : 0 ≤ γ) (h1 : γ ≤ 1) (hx : |x| < Real.pi) : pull γ x + pull (1 - γ) x = x := by
  have d1 := pull_den h0 h1 hx
  have d2 := pull_den (γ := 1 - γ) (by linarith) (by linarith) hx
  have hc := half_cos hx
  have hs := Real.sin_sq_add_cos_sq (x / 2)
  have hx2 : -(Real.pi / 2) < x / 2 ∧ x / 2 < Real.pi / 2 := by
    rw [abs_lt] at hx
    exact ⟨by linarith, by linarith⟩
  have ht : Real.arctan (Real.sin (x / 2) / Real.cos (x / 2)) = x / 2 := by
    rw [← Real.tan_eq_sin_div_cos, Real.arctan_tan hx2.1 hx2.2]
  unfold pull
  rw [sub_sub_cancel] at *
  generalize Real.cos (x / 2) = c at *
  generalize Real.sin (x / 2) = s at *
  have hk : 0 < γ ^ 2 + (1 - γ) ^ 2 + 2 * γ * (1 - γ) * c := by
    have : 0 ≤ γ * (1 - γ) := mul_nonneg h0 (by linarith)
    nlinarith [sq_nonneg (γ - (1 - γ)), mul_nonneg this hc.le]
  have e : (1 - γ + γ * c) * (γ + (1 - γ) * c) - γ * s * ((1 - γ) * s) =
      c * (γ ^ 2 + (1 - γ) ^ 2 + 2 * γ * (1 - γ) * c) := by
    linear_combination -(γ * (1 - γ)) * hs
  have hab : γ * s / (1 - γ + γ * c) * ((1 - γ) * s / (γ + (1 - γ) * c)) < 1 := by
    rw [div_mul_div_comm, div_lt_one (mul_pos d1 d2)]
    have := mul_pos hc hk
    linarith
  rw [← mul_add, Real.arctan_add hab, show (γ * s / (1 - γ + γ * c) + (1 - γ) * s / (γ + (1 - γ) * c)) /
    (1 - γ * s / (1 - γ + γ * c) * ((1 - γ) * s / (γ + (1 - γ) * c))) = s / c by
      rw [div_add_div _ _ d1.ne' d2.ne', div_mul_div_comm, one_sub_div (mul_pos d1 d2).ne', e,
        div_div_div_cancel_right₀ (mul_pos d1 d2).ne',
        show γ * s * (γ + (1 - γ) * c) + (1 - γ + γ * c) * ((1 - γ) * s) =
          s * (γ ^ 2 + (1 - γ) ^ 2 + 2 * γ * (1 - γ) * c) by ring, mul_div_mul_right _ _ hk.ne'], ht]
  ring

theorem pull_zero (γ : ℝ) : pull γ 0 = 0 := by
  unfold pull
  simp

theorem pull_lt (h0 : 0 < γ) (h1 : γ ≤ 1) (hx : 0 ≤ x) (hxy : x < y) (hy : y < Real.pi) : pull γ x < pull γ y := by
  have dx := pull_den h0.le h1 (x := x) (by rw [abs_of_nonneg hx]; linarith)
  have dy := pull_den h0.le h1 (x := y) (by rw [abs_of_nonneg (by linarith)]; linarith)
  have hs : Real.sin (x / 2) < Real.sin (y / 2) := Real.sin_lt_sin_of_lt_of_le_pi_div_two (by linarith [Real.pi_pos]) (by linarith) (by linarith)
  have hc : Real.cos (y / 2) ≤ Real.cos (x / 2) := Real.cos_le_cos_of_nonneg_of_le_pi (by linarith) (by linarith [Real.pi_pos]) (by linarith)
  have hs0 : 0 ≤ Real.sin (x / 2) := Real.sin_nonneg_of_nonneg_of_le_pi (by linarith) (by linarith [Real.pi_pos])
  unfold pull
  refine mul_lt_mul_of_pos_left (Real.arctan_strictMono ?_) two_pos
  have a1 : γ * Real.sin (x / 2) / (1 - γ + γ * Real.cos (x / 2)) ≤ γ * Real.sin (x / 2) / (1 - γ + γ * Real.cos (y / 2)) :=
    div_le_div_of_nonneg_left (by positivity) dy (by nlinarith)
  refine a1.trans_lt ?_
  exact div_lt_div_of_pos_right (mul_lt_mul_of_pos_left hs h0) dy

theorem pull_le (h0 : 0 ≤ γ) (h1 : γ ≤ 1) (hx : 0 ≤ x) (hxy : x ≤ y) (hy : y < Real.pi) : pull γ x ≤ pull γ y := by
  rcases h0.eq_or_lt with rfl | h
  · unfold pull; simp
  · rcases hxy.eq_or_lt with rfl | h'
    · exact le_rfl
    · exact (pull_lt h h1 hx h' hy).le

theorem pull_nonneg (h0 : 0 ≤ γ) (h1 : γ ≤ 1) (hx : 0 ≤ x) (hy : x < Real.pi) : 0 ≤ pull γ x := by
  rw [← pull_zero γ]
  exact pull_le h0 h1 le_rfl hx hy

/-- From the weight 1/2 on the part of the angle is at least the weight. -/
theorem le_pull (h0 : 1 / 2 ≤ γ) (h1 : γ < 1) (hx : 0 ≤ x) (hy : x < Real.pi) : γ * x ≤ pull γ x := by
  have d := pull_den (by linarith) h1.le (x := x) (by rw [abs_of_nonneg hx]; exact hy)
  have hcc : Real.sin (γ * (x / 2)) / γ ≤ Real.sin ((1 - γ) * (x / 2)) / (1 - γ) := by
    have hcon := strictConcaveOn_sin_Icc.concaveOn.2
      (show (0 : ℝ) ∈ _root_.Set.Icc 0 Real.pi from ⟨le_rfl, Real.pi_pos.le⟩)
      (show γ * (x / 2) ∈ _root_.Set.Icc 0 Real.pi from ⟨by nlinarith, by nlinarith [Real.pi_pos]⟩)
      (show 0 ≤ 1 - (1 - γ) / γ by rw [sub_nonneg, div_le_one (by linarith)]; linarith)
      (show 0 ≤ (1 - γ) / γ from div_nonneg (by linarith) (by linarith)) (by ring)
    have hγ : γ ≠ 0 := by linarith
    simp only [smul_eq_mul, Real.sin_zero, mul_zero, zero_add] at hcon
    rw [show (1 - γ) / γ * (γ * (x / 2)) = (1 - γ) * (x / 2) by field_simp] at hcon
    rw [le_div_iff₀ (by linarith)]
    calc _ = (1 - γ) / γ * Real.sin (γ * (x / 2)) := by ring
      _ ≤ _ := hcon
  have hg0 : 0 < γ := by linarith
  rw [div_le_div_iff₀ hg0 (by linarith)] at hcc
  have hcos : 0 < Real.cos (γ * (x / 2)) :=
    Real.cos_pos_of_mem_Ioo ⟨by nlinarith [Real.pi_pos], by nlinarith [Real.pi_pos]⟩
  have hdiff : Real.sin ((1 - γ) * (x / 2)) = Real.sin (x / 2) * Real.cos (γ * (x / 2)) -
      Real.cos (x / 2) * Real.sin (γ * (x / 2)) := by
    rw [← Real.sin_sub]
    congr 1
    ring
  have key : Real.tan (γ * (x / 2)) ≤ γ * Real.sin (x / 2) / (1 - γ + γ * Real.cos (x / 2)) := by
    rw [Real.tan_eq_sin_div_cos, div_le_div_iff₀ hcos d]
    rw [hdiff] at hcc
    linarith
  have := Real.arctan_mono key
  rw [Real.arctan_tan (by nlinarith [Real.pi_pos]) (by nlinarith [Real.pi_pos])] at this
  unfold pull
  linarith

/-- How far behind the heading is after `N` updates, when each of them begins `δ` farther and leaves the part `γ`. -/
noncomputable def lag (γ δ : ℝ) : ℕ → ℝ
  | 0 => 0
  | N + 1 => pull γ (lag γ δ N + δ)

/-- The interpolation of a heading. -/
theorem lerpQ_yaw (h0 : 0 ≤ β) (h1 : β ≤ 1) (hx : |x| < Real.pi) : lerpQ β (yaw x) = yaw (pull β x) := by
  have d := pull_den h0 h1 hx
  have e : ((1 - β) • 1 + β • yaw x : Quaternion ℝ) = mkQ (1 - β + β * Real.cos (x / 2)) 0 0
      ((1 - β + β * Real.cos (x / 2)) * (β * Real.sin (x / 2) / (1 - β + β * Real.cos (x / 2)))) := by
    rw [mul_div_cancel₀ _ d.ne']
    apply Quaternion.ext <;> simp [yaw, Quaternion.re_one, Quaternion.imI_one, Quaternion.imJ_one, Quaternion.imK_one]
  have hn : epsilon ℝ < ‖mkQ (1 - β + β * Real.cos (x / 2)) 0 0
      ((1 - β + β * Real.cos (x / 2)) * (β * Real.sin (x / 2) / (1 - β + β * Real.cos (x / 2))))‖ := by
    rw [mul_div_cancel₀ _ d.ne', norm_mkQ]
    refine lt_of_lt_of_le eps_lt_half (Real.le_sqrt_of_sq_le ?_)
    have hc := half_cos hx
    have hs := Real.sin_sq_add_cos_sq (x / 2)
    have : (1 - β + β * Real.cos (x / 2)) ^ 2 + 0 ^ 2 + 0 ^ 2 + (β * Real.sin (x / 2)) ^ 2 =
        (1 - β) ^ 2 + β ^ 2 + 2 * (β * (1 - β)) * Real.cos (x / 2) := by linear_combination β ^ 2 * hs
    rw [this]
    have h2 := mul_nonneg (mul_nonneg h0 (show 0 ≤ 1 - β by linarith)) hc.le
    nlinarith [sq_nonneg (2 * β - 1)]
  unfold lerpQ
  rw [e, unitOf_yaw d hn]
  rfl

theorem lag_bounds (h0 : 0 ≤ β) (h1 : β ≤ 1) (hδ : 0 ≤ δ) (hX : X < Real.pi) (hX0 : 0 ≤ X) (h : δ ≤ pull β X) (N : ℕ) :
    0 ≤ lag (1 - β) δ N ∧ lag (1 - β) δ N + δ ≤ X := by
  have hXX : pull β X + pull (1 - β) X = X := pull_add h0 h1 (by rw [abs_of_nonneg hX0]; exact hX)
  induction N with
  | zero =>
    have := pull_nonneg (γ := 1 - β) (by linarith) (by linarith) hX0 hX
    refine ⟨le_rfl, ?_⟩
    show 0 + δ ≤ X
    linarith
  | succ N ih =>
    have := pull_le (γ := 1 - β) (by linarith) (by linarith) (show 0 ≤ lag (1 - β) δ N + δ by linarith [ih.1]) ih.2 hX
    refine ⟨pull_nonneg (by linarith) (by linarith) (by linarith [ih.1]) (by linarith [ih.2]), ?_⟩
    show pull (1 - β) (lag (1 - β) δ N + δ) + δ ≤ X
    linarith

end Aqua

open Aqua
section
variable {s s' : Aqua XR} {i : AquaInit XR} {A : Quaternion ℝ} {τ α β t u ψ φ r n b z x δ X Ω φ₀ : ℝ}
  {dg : GyrometerConfig ℝ} {da : AccelerometerConfig ℝ} {dm : MagnetometerConfig ℝ} {y : Sample}

/-- C116: one MARG update of a filter without tilt, at the heading `ψ`, that reads the rate `r` about the vertical axis,
a vertical acceleration and a field of the horizontal direction `φ`.  The rate takes the heading to
`ψ + 2 arctan (r τ / 2)`; of the angle `x` that is missing from there to `φ`, the part `1 - β` is left. -/
theorem C116_step (h : Aqua.Set i dg da dm s) (hi : AquaInit.Fixed i τ α β t u) (hA : Shows s (yaw ψ))
    (hr : y.rate dg = mkQ 0 0 0 r) (ha : y.acc da = ![0, 0, -n]) (hn : 0 < n) (ht : t < √((1 + n) / 2))
    (hm : y.field dm = ![b * Real.cos φ, b * Real.sin φ, z]) (hb : 0 < b) (hm1 : epsilon ℝ < norm3 (y.field dm))
    (hx : x = φ - (ψ + 2 * Real.arctan (r * τ / 2))) (hx1 : |x| < Real.pi) (hu : u < Real.cos (x / 2)) :
    ∃ s', feed y s = (.ok (), s') ∧ Shows s' (yaw (φ - pull (1 - β) x)) := by
  have hP : predQ (yaw ψ) (y.rate dg) τ = yaw (φ - x) := by
    rw [hr, predQ_yaw, hx, sub_sub_cancel]
  have hg : unrot (yaw (φ - x)) ![0, 0, -n] = ![0, 0, -n] := by
    have := unrot_yaw (φ - x) 0 0 (-n)
    simpa using this
  have hI : Inter α t (accQ ![0, 0, -n]) 1 := by
    have hq : accQ ![0, 0, -n] = mkQ √((1 + n) / 2) 0 0 0 := by
      unfold accQ
      rw [if_pos (show (![0, 0, -n] : Fin 3 → ℝ) 2 < 0 from by show -n < 0; linarith)]
      simp
    rw [hq]
    refine Or.inl ⟨ht, ?_⟩
    have e : ((1 - α) • 1 + α • mkQ √((1 + n) / 2) 0 0 0 : Quaternion ℝ) =
        mkQ (1 - α + α * √((1 + n) / 2)) 0 0 0 := by
      apply Quaternion.ext <;> simp [Quaternion.re_one, Quaternion.imI_one, Quaternion.imJ_one, Quaternion.imK_one]
    have hl : 1 / 2 ≤ √((1 + n) / 2) := Real.le_sqrt_of_sq_le (by linarith)
    have hc1 : 1 / 2 ≤ 1 - α + α * √((1 + n) / 2) := by nlinarith [hi.alpha_range.1, hi.alpha_range.2]
    unfold lerpQ
    rw [e]
    generalize 1 - α + α * √((1 + n) / 2) = c at *
    have hnc : ‖mkQ c 0 0 0‖ = c := by
      rw [norm_mkQ, show c ^ 2 + 0 ^ 2 + 0 ^ 2 + 0 ^ 2 = c ^ 2 by ring, Real.sqrt_sq (by linarith)]
    unfold unitOf
    rw [hnc, if_pos (lt_of_lt_of_le eps_lt_half hc1), mkQ_smul, inv_mul_cancel₀ (by linarith), mul_zero, mkQ_one]
  obtain ⟨m, hmn⟩ : ∃ m, m = norm3 (y.field dm) := ⟨_, rfl⟩
  have hm0 : 0 < m := hmn ▸ Linalg.eps_pos.trans hm1
  have hd : dir (y.field dm) = ![b / m * Real.cos φ, b / m * Real.sin φ, z / m] := by
    funext k
    unfold dir
    rw [if_pos hm1, ← hmn, hm]
    fin_cases k
    · show b * Real.cos φ / m = b / m * Real.cos φ
      ring
    · show b * Real.sin φ / m = b / m * Real.sin φ
      ring
    · rfl
  have hl : unrot (yaw (φ - x)) (dir (y.field dm)) = ![b / m * Real.cos x, b / m * Real.sin x, z / m] := by
    rw [hd, unrot_yaw, sub_sub_cancel]
  have hbm : 0 < b / m := div_pos hb hm0
  have l0 : unrot (yaw (φ - x)) (dir (y.field dm)) 0 = b / m * Real.cos x := congrFun hl 0
  have l1 : unrot (yaw (φ - x)) (dir (y.field dm)) 1 = b / m * Real.sin x := congrFun hl 1
  have hc := half_cos hx1
  have hst : StepTo (yaw ψ) (y.rate dg) (y.acc da) (y.field dm) τ α β t u 1 (yaw (pull β x)) := by
    refine ⟨?_, ?_, ?_⟩
    · rw [hP, ha, hg]
      exact hI
    · rw [hP, mul_one, l0, l1]
      have e1 : √(b / m * Real.cos x * (b / m * Real.cos x) + b / m * Real.sin x * (b / m * Real.sin x)) = b / m := by
        rw [show b / m * Real.cos x * (b / m * Real.cos x) + b / m * Real.sin x * (b / m * Real.sin x) = (b / m) ^ 2 by
          linear_combination (b / m) ^ 2 * Real.cos_sq_add_sin_sq x, Real.sqrt_sq hbm.le]
      rw [e1]
      have h2 : Real.cos x = 2 * Real.cos (x / 2) ^ 2 - 1 := by rw [← Real.cos_two_mul]; ring_nf
      rw [h2]
      have : 0 < b / m * (2 * Real.cos (x / 2) ^ 2) := by positivity
      linarith
    · rw [hP, mul_one, l0, l1, magPos_yaw hbm hx1]
      exact Or.inl ⟨hu, (lerpQ_yaw hi.beta_range.1 hi.beta_range.2 hx1).symm⟩
  obtain ⟨s', e, hs'⟩ := fixed_ok h.started hi hA h.gyr h.acc h.mag hst
  refine ⟨s', e, ?_⟩
  have hsum := pull_add hi.beta_range.1 hi.beta_range.2 hx1
  rw [hP, mul_one, yaw_mul, unitOf_unit (yaw_norm _), show φ - x + pull β x = φ - pull (1 - β) x by linarith] at hs'
  exact hs'

/-- The readings of a level sensor that turns about the vertical axis with the rate `Ω`: at the end of update `k` the
field points to `φ₀ - (k + 1) Ω τ`. The gyrometer reads `r`. -/
structure Turning (dg : GyrometerConfig ℝ) (da : AccelerometerConfig ℝ) (dm : MagnetometerConfig ℝ) (τ Ω φ₀ n b z r : ℝ)
    (y : ℕ → Sample) : Prop where
  rate : ∀ k, (y k).rate dg = mkQ 0 0 0 r
  acc : ∀ k, (y k).acc da = ![0, 0, -n]
  field : ∀ k : ℕ, (y k).field dm = ![b * Real.cos (φ₀ - (k + 1) * (Ω * τ)), b * Real.sin (φ₀ - (k + 1) * (Ω * τ)), z]

/-- C116: the filter during such a turn, aligned at first.  With `δ = Ω τ + 2 arctan (r τ / 2)`, and an angle `X` of which
the filter takes back at least `δ`, every update succeeds, and after `N` of them the heading is behind by `lag`. -/
theorem C116_turn (h : Aqua.Set i dg da dm s) (hi : AquaInit.Fixed i τ α β t u) (hA : Shows s (yaw φ₀)) {y : ℕ → Sample}
    (hy : Turning dg da dm τ Ω φ₀ n b z r y) (hn : 0 < n) (ht : t < √((1 + n) / 2)) (hb : epsilon ℝ < b)
    (hδ : δ = Ω * τ + 2 * Real.arctan (r * τ / 2)) (h0 : 0 ≤ δ) (hX0 : 0 ≤ X) (hX : X < Real.pi) (hδX : δ ≤ pull β X)
    (hu : u < Real.cos (X / 2)) (N : ℕ) :
    Aqua.Set i dg da dm (feeds s ((List.range N).map y)) ∧ (feed (y N) (feeds s ((List.range N).map y))).1 = .ok () ∧
      Shows (feeds s ((List.range N).map y)) (yaw (φ₀ - N * (Ω * τ) + lag (1 - β) δ N)) := by
  have key : ∀ {s' : Aqua XR} (N : ℕ), Aqua.Set i dg da dm s' → Shows s' (yaw (φ₀ - N * (Ω * τ) + lag (1 - β) δ N)) →
      ∃ s'', feed (y N) s' = (.ok (), s'') ∧ Shows s'' (yaw (φ₀ - (N + 1 : ℕ) * (Ω * τ) + lag (1 - β) δ (N + 1))) := by
    intro s' N hs' hA'
    obtain ⟨l1, l2⟩ := lag_bounds hi.beta_range.1 hi.beta_range.2 h0 hX hX0 hδX N
    have hx : -(lag (1 - β) δ N + δ) = φ₀ - (N + 1) * (Ω * τ) - (φ₀ - N * (Ω * τ) + lag (1 - β) δ N +
        2 * Real.arctan (r * τ / 2)) := by
      rw [hδ]
      ring
    have hab : |-(lag (1 - β) δ N + δ)| = lag (1 - β) δ N + δ := by rw [abs_neg, abs_of_nonneg (by linarith)]
    obtain ⟨s'', e, k⟩ := C116_step hs' hi hA' (hy.rate N) (hy.acc N) hn ht (hy.field N) (Linalg.eps_pos.trans hb) (by
      refine lt_of_lt_of_le hb ?_
      rw [hy.field N]
      refine Real.le_sqrt_of_sq_le ?_
      show b ^ 2 ≤ (b * _) ^ 2 + (b * _) ^ 2 + z ^ 2
      have := Real.cos_sq_add_sin_sq (φ₀ - (N + 1) * (Ω * τ))
      nlinarith [sq_nonneg z]) hx (by rw [hab]; linarith) (by
      rw [neg_div, Real.cos_neg]
      refine lt_of_lt_of_le hu (Real.cos_le_cos_of_nonneg_of_le_pi (by linarith) (by linarith [Real.pi_pos]) (by linarith)))
    refine ⟨s'', e, ?_⟩
    rw [pull_neg, sub_neg_eq_add] at k
    push_cast
    exact k
  have main : Aqua.Set i dg da dm (feeds s ((List.range N).map y)) ∧
      Shows (feeds s ((List.range N).map y)) (yaw (φ₀ - N * (Ω * τ) + lag (1 - β) δ N)) := by
    induction N with
    | zero =>
      refine ⟨h, ?_⟩
      simpa [feeds, lag] using hA
    | succ N ih =>
      obtain ⟨s'', e, k⟩ := key N ih.1 ih.2
      rw [List.range_succ, List.map_append, feeds_append]
      have e2 : feeds (feeds s ((List.range N).map y)) ([N].map y) = s'' := by
        show (feed (y N) _).2 = s''
        rw [e]
      rw [e2]
      refine ⟨?_, k⟩
      have := ih.1.feed (y N)
      rwa [e] at this
  obtain ⟨s'', e, -⟩ := key N main.1 main.2
  exact ⟨main.1, by rw [e], main.2⟩

/-! ### The size of the lag -/

theorem pull_continuousAt {γ : ℝ} (h0 : 0 ≤ γ) (h1 : γ ≤ 1) (hx : |x| < Real.pi) : ContinuousAt (pull γ) x := by
  have d := pull_den h0 h1 hx
  unfold pull
  refine continuousAt_const.mul (Real.continuous_arctan.continuousAt.comp ?_)
  refine ContinuousAt.div ?_ ?_ d.ne'
  · fun_prop
  · fun_prop

theorem pull_half (hx : |x| < Real.pi) : pull (1 / 2) x = x / 2 := by
  have := pull_add (γ := 1 / 2) (by norm_num) (by norm_num) hx
  norm_num at this
  linarith

/-- C116: the lag grows from update to update, and its limit `L` is the angle where what the filter takes back is what
each update adds. -/
theorem C116_lag (h0 : 0 ≤ β) (h1 : β ≤ 1) (hδ : 0 ≤ δ) (hX0 : 0 ≤ X) (hX : X < Real.pi) (h : δ ≤ pull β X) :
    Monotone (lag (1 - β) δ) ∧ ∃ L, 0 ≤ L ∧ L + δ ≤ X ∧ pull β (L + δ) = δ ∧
      Filter.Tendsto (lag (1 - β) δ) Filter.atTop (nhds L) := by
  have hb := lag_bounds h0 h1 hδ hX hX0 h
  have hm : Monotone (lag (1 - β) δ) := by
    refine monotone_nat_of_le_succ fun N => ?_
    induction N with
    | zero => exact (hb 1).1
    | succ N ih =>
      have := (hb N).1
      have := (hb (N + 1)).2
      exact pull_le (by linarith) (by linarith) (by linarith) (by linarith) (by linarith)
  have ht := tendsto_atTop_ciSup hm ⟨X, by rintro _ ⟨N, rfl⟩; have := (hb N).2; linarith⟩
  generalize (⨆ N, lag (1 - β) δ N) = L at ht
  have hL0 : 0 ≤ L := ge_of_tendsto' ht fun N => (hb N).1
  have hLX : L + δ ≤ X := by
    have : L ≤ X - δ := le_of_tendsto' ht fun N => by have := (hb N).2; linarith
    linarith
  have hab : |L + δ| < Real.pi := by rw [abs_of_nonneg (by linarith)]; linarith
  refine ⟨hm, L, hL0, hLX, ?_, ht⟩
  have hc := (pull_continuousAt (γ := 1 - β) (by linarith) (by linarith) hab).tendsto.comp (ht.add_const δ)
  have hs := ht.comp (Filter.tendsto_add_atTop_nat 1)
  have := tendsto_nhds_unique hs hc
  have := pull_add h0 h1 hab
  linarith

/-- C116: with a gain of at most 1/2 the lag is at least that of the geometric series. -/
theorem C116_lag_ge (h0 : 0 < β) (h1 : β ≤ 1 / 2) (hδ : 0 ≤ δ) (hX0 : 0 ≤ X) (hX : X < Real.pi) (h : δ ≤ pull β X) (N : ℕ) :
    δ * (1 - β) * (1 - (1 - β) ^ N) / β ≤ lag (1 - β) δ N := by
  have hb := lag_bounds h0.le (by linarith) hδ hX hX0 h
  induction N with
  | zero => simp [lag]
  | succ N ih =>
    have b1 := (hb N).1
    have b2 := (hb N).2
    have k : (1 - β) * (lag (1 - β) δ N + δ) ≤ pull (1 - β) (lag (1 - β) δ N + δ) :=
      le_pull (by linarith) (by linarith) (by linarith) (by linarith)
    have e : δ * (1 - β) * (1 - (1 - β) ^ (N + 1)) / β = (1 - β) * (δ * (1 - β) * (1 - (1 - β) ^ N) / β + δ) := by
      field_simp
      ring
    rw [e]
    refine le_trans ?_ k
    exact mul_le_mul_of_nonneg_left (by linarith) (by linarith)

/-- C116: with the gain 1/2 the lag is exactly that. -/
theorem C116_lag_half (hδ : 0 ≤ δ) (h : 2 * δ < Real.pi) (N : ℕ) : lag (1 / 2) δ N = δ * (1 - (1 / 2) ^ N) := by
  induction N with
  | zero => simp [lag]
  | succ N ih =>
    have p0 : (0 : ℝ) ≤ (1 / 2) ^ N := by positivity
    have p1 : ((1 : ℝ) / 2) ^ N ≤ 1 := pow_le_one₀ (by norm_num) (by norm_num)
    have k : 0 ≤ δ * (1 - (1 / 2) ^ N) := mul_nonneg hδ (by linarith)
    have k2 : δ * (1 - (1 / 2) ^ N) ≤ δ := by nlinarith
    show pull (1 / 2) (lag (1 / 2) δ N + δ) = _
    rw [ih, pull_half (by rw [abs_of_nonneg (by linarith)]; linarith), pow_succ]
    ring

/-- C116: a larger `δ` gives a larger lag. -/
theorem C116_lag_lt {δ' : ℝ} (h0 : 0 ≤ β) (h1 : β < 1) (hδ : 0 ≤ δ) (hX0 : 0 ≤ X) (hX : X < Real.pi) (h : δ' ≤ pull β X)
    (hd : δ < δ') {N : ℕ} (hN : 1 ≤ N) : lag (1 - β) δ N < lag (1 - β) δ' N := by
  have hb := lag_bounds h0 h1.le hδ hX hX0 (hd.le.trans h)
  have hb' := lag_bounds h0 h1.le (hδ.trans hd.le) hX hX0 h
  have step : ∀ N, lag (1 - β) δ N ≤ lag (1 - β) δ' N → lag (1 - β) δ (N + 1) < lag (1 - β) δ' (N + 1) := by
    intro N k
    have := (hb N).1
    have := (hb' N).2
    exact pull_lt (by linarith) (by linarith) (by linarith) (by linarith) (by linarith)
  have all : ∀ N, lag (1 - β) δ N ≤ lag (1 - β) δ' N := by
    intro N
    induction N with
    | zero => exact le_rfl
    | succ N ih => exact (step N ih).le
  obtain ⟨M, rfl⟩ : ∃ M, N = M + 1 := ⟨N - 1, by omega⟩
  exact step M (all M)

/-- C116: two filters with the same configuration follow the same turn, `Ω > 0`.  The gyrometer of the first reads the
true rate, that of the second reads zero.  After every number of updates the heading of the first is farther behind. -/
theorem C116_worse {s₁ s₂ : Aqua XR} {i₁ i₂ : AquaInit XR} (h1 : Aqua.Set i₁ dg da dm s₁) (h2 : Aqua.Set i₂ dg da dm s₂)
    (hi₁ : AquaInit.Fixed i₁ τ α β t u) (hi₂ : AquaInit.Fixed i₂ τ α β t u) (hβ : β < 1) (hτ : 0 < τ)
    (hA₁ : Shows s₁ (yaw φ₀)) (hA₂ : Shows s₂ (yaw φ₀)) {y₁ y₂ : ℕ → Sample} (hΩ : 0 < Ω)
    (hy₁ : Turning dg da dm τ Ω φ₀ n b z Ω y₁) (hy₂ : Turning dg da dm τ Ω φ₀ n b z 0 y₂) (hn : 0 < n)
    (ht : t < √((1 + n) / 2)) (hb : epsilon ℝ < b) (hX0 : 0 ≤ X) (hX : X < Real.pi) (hδX : 2 * (Ω * τ) ≤ pull β X)
    (hu : u < Real.cos (X / 2)) {N : ℕ} (hN : 1 ≤ N) :
    ∃ e₁ e₂, 0 ≤ e₂ ∧ e₂ < e₁ ∧ e₁ < Real.pi ∧
      Shows (feeds s₁ ((List.range N).map y₁)) (yaw (φ₀ - N * (Ω * τ) + e₁)) ∧
      Shows (feeds s₂ ((List.range N).map y₂)) (yaw (φ₀ - N * (Ω * τ) + e₂)) := by
  have hp : 0 < Ω * τ := mul_pos hΩ hτ
  have a0 : 0 < Real.arctan (Ω * τ / 2) := Real.arctan_pos.mpr (by linarith)
  have a1 : Real.arctan (Ω * τ / 2) ≤ Ω * τ / 2 := by
    have := Real.le_tan a0.le (Real.arctan_lt_pi_div_two _)
    rwa [Real.tan_arctan] at this
  have b0 := hi₁.beta_range.1
  have k1 := C116_turn h1 hi₁ hA₁ hy₁ hn ht hb rfl (by linarith) hX0 hX (by linarith) hu N
  have k2 := C116_turn (δ := Ω * τ) h2 hi₂ hA₂ hy₂ hn ht hb (by simp) hp.le hX0 hX (by linarith) hu N
  have l1 := lag_bounds (δ := Ω * τ + 2 * Real.arctan (Ω * τ / 2)) b0 hβ.le (by linarith) hX hX0 (by linarith) N
  have l2 := lag_bounds (δ := Ω * τ) b0 hβ.le hp.le hX hX0 (by linarith) N
  exact ⟨_, _, l2.1, C116_lag_lt b0 hβ hp.le hX0 hX (by linarith) (by linarith) hN, by linarith [l1.2], k1.2.2, k2.2.2⟩

/-- C116: the readings of `Turning` are those of a rigid body: the attitude `yaw (Ω t - φ₀)` turns with the constant rate
`Ω` about its own third axis, and `yaw (φ₀ - Ω t)` takes the fixed vertical direction and the fixed field `(b, 0, z)` to
their readings at the time `t`. -/
theorem C116_motion (Ω φ₀ : ℝ) : Motion (fun t => yaw (Ω * t - φ₀)) (fun _ => mkQ 0 0 0 Ω) 0 ∧
    (∀ t n : ℝ, star (yaw (Ω * t - φ₀)) * mkQ 0 0 0 (-n) * yaw (Ω * t - φ₀) = mkQ 0 0 0 (-n)) ∧
    ∀ t b z : ℝ, star (yaw (Ω * t - φ₀)) * mkQ 0 b 0 z * yaw (Ω * t - φ₀) =
      mkQ 0 (b * Real.cos (φ₀ - Ω * t)) (b * Real.sin (φ₀ - Ω * t)) z := by
  have hc : ∀ a : ℝ, Real.cos a = 2 * Real.cos (a / 2) ^ 2 - 1 := fun a => by rw [← Real.cos_two_mul]; ring_nf
  have hs : ∀ a : ℝ, Real.sin a = 2 * Real.sin (a / 2) * Real.cos (a / 2) := fun a => by rw [← Real.sin_two_mul]; ring_nf
  refine ⟨⟨yaw_norm _, fun _ => by simp, fun t => ?_, fun _ _ => by simp⟩, fun t n => ?_, fun t b z => ?_⟩
  · have e : ∀ t, yaw (Ω * t - φ₀) = Real.cos ((Ω * t - φ₀) / 2) • (1 : Quaternion ℝ) + Real.sin ((Ω * t - φ₀) / 2) •
        mkQ (0 : ℝ) 0 0 1 := by
      intro t
      unfold yaw
      apply Quaternion.ext <;> simp [Quaternion.re_one, Quaternion.imI_one, Quaternion.imJ_one, Quaternion.imK_one]
    have d : HasDerivAt (fun t : ℝ => (Ω * t - φ₀) / 2) (Ω / 2) t := by
      have := (((hasDerivAt_id t).const_mul Ω).sub_const φ₀).div_const 2
      simpa using this
    have := ((d.cos).smul_const (1 : Quaternion ℝ)).add ((d.sin).smul_const (mkQ (0 : ℝ) 0 0 1))
    have e2 : (fun t => yaw (Ω * t - φ₀)) = fun t => Real.cos ((Ω * t - φ₀) / 2) • (1 : Quaternion ℝ) +
      Real.sin ((Ω * t - φ₀) / 2) • mkQ (0 : ℝ) 0 0 1 := funext e
    rw [e2]
    refine this.congr_deriv ?_
    unfold yaw
    generalize (Ω * t - φ₀) / 2 = a
    apply Quaternion.ext <;> simp [Quaternion.re_one, Quaternion.imI_one, Quaternion.imJ_one, Quaternion.imK_one,
      Quaternion.re_mul, Quaternion.imI_mul, Quaternion.imJ_mul, Quaternion.imK_mul] <;> ring
  · rw [yaw_star]
    have := Real.sin_sq_add_cos_sq ((Ω * t - φ₀) / 2)
    unfold yaw
    rw [neg_div, Real.cos_neg, Real.sin_neg]
    apply Quaternion.ext <;> simp [Quaternion.re_mul, Quaternion.imI_mul, Quaternion.imJ_mul, Quaternion.imK_mul]
    · ring
    · linear_combination -n * this
  · rw [yaw_star, show φ₀ - Ω * t = -(Ω * t - φ₀) by ring]
    have := Real.sin_sq_add_cos_sq ((Ω * t - φ₀) / 2)
    rw [Real.cos_neg, Real.sin_neg, hc (Ω * t - φ₀), hs (Ω * t - φ₀)]
    unfold yaw
    rw [neg_div, Real.cos_neg, Real.sin_neg]
    apply Quaternion.ext <;> simp [Quaternion.re_mul, Quaternion.imI_mul, Quaternion.imJ_mul, Quaternion.imK_mul]
    · ring
    · linear_combination -b * this
    · ring
    · linear_combination z * this

/-- C116: without the corrections the filter follows the attitude from the frame of the sensor to the fixed frame, like the
AR filter: with the gains 0 and successful updates the attitude stays near `q` of every motion whose rate is read within
`η` at some time of each update. -/
theorem C116_free {q ω : ℝ → Quaternion ℝ} {L η h t₀ : ℝ} (hq : Motion q ω L) (hs : Aqua.Set i dg da dm s)
    (hi : AquaInit.Fixed i τ 0 0 t u) (hτ : 0 ≤ τ) (hA : Shows s A) (hA1 : ‖A‖ = 1) {y : ℕ → Sample} {N : ℕ}
    (hok : ∀ k < N, (feed (y k) (feeds s ((List.range k).map y))).1 = .ok ())
    (hr : ∀ k < N, ∃ v ∈ _root_.Set.Icc (t₀ + k * τ) (t₀ + k * τ + τ), ‖(y k).rate dg - ω v‖ ≤ η)
    (hh : ∀ k < N, ‖(τ / 2) • (y k).rate dg‖ ≤ h) :
    ∃ B, Shows (feeds s ((List.range N).map y)) B ∧ ‖B‖ = 1 ∧
      ‖B - q (t₀ + N * τ)‖ ≤ ‖A - q t₀‖ + N * (L * τ ^ 2 / 4 + η * τ / 2 + h ^ 3 / 3) := by
  have main : Aqua.Set i dg da dm (feeds s ((List.range N).map y)) ∧ ∃ B, Shows (feeds s ((List.range N).map y)) B ∧ ‖B‖ = 1 ∧
      ‖B - q (t₀ + N * τ)‖ ≤ ‖A - q t₀‖ + N * (L * τ ^ 2 / 4 + η * τ / 2 + h ^ 3 / 3) := by
    induction N with
    | zero => exact ⟨hs, A, hA, hA1, by simp⟩
    | succ N ih =>
      obtain ⟨hs', B, hB, hB1, hBq⟩ := ih (fun k hk => hok k (by omega)) (fun k hk => hr k (by omega))
        (fun k hk => hh k (by omega))
      have e : feed (y N) (feeds s ((List.range N).map y)) = (.ok (), (feed (y N) (feeds s ((List.range N).map y))).2) :=
        Prod.ext (hok N (by omega)) rfl
      have e2 : feeds s ((List.range (N + 1)).map y) = (feed (y N) (feeds s ((List.range N).map y))).2 := by
        rw [List.range_succ, List.map_append, feeds_append]
        rfl
      rw [e2]
      refine ⟨hs'.feed (y N), ?_⟩
      have k := C70_gyro hs'.started hi hB hB1 hs'.gyr hs'.acc hs'.mag e rfl
      have hre : ((τ / 2) • (y N).rate dg).re = 0 := by simp [Sample.rate, GyrometerConfig.rate]
      have e3 : B + (τ / 2) • (B * (y N).rate dg) = B * (1 + (τ / 2) • (y N).rate dg) := by
        rw [mul_add, mul_one, mul_smul_comm]
      have e4 : ‖B + (τ / 2) • (B * (y N).rate dg)‖⁻¹ • (B + (τ / 2) • (B * (y N).rate dg)) =
          B * eulerUnit ((τ / 2) • (y N).rate dg) := by
        unfold eulerUnit
        rw [e3, norm_mul, hB1, one_mul, mul_smul_comm]
      rw [e4] at k
      refine ⟨_, k, by rw [norm_mul, hB1, one_mul, norm_eulerUnit hre], ?_⟩
      have m := hq.measured (A := B) hτ (show ((y N).rate dg).re = 0 by simp [Sample.rate, GyrometerConfig.rate])
        (hr N (by omega))
      have d : ‖B * eulerUnit ((τ / 2) • (y N).rate dg) - B * NormedSpace.exp ((τ / 2) • (y N).rate dg)‖ ≤ h ^ 3 / 3 := by
        rw [← mul_sub, norm_mul, hB1, one_mul]
        refine (eulerUnit_exp hre).trans ?_
        have := pow_le_pow_left₀ (norm_nonneg _) (hh N (by omega)) 3
        linarith
      have t1 := norm_sub_le_norm_sub_add_norm_sub (B * eulerUnit ((τ / 2) • (y N).rate dg))
        (B * NormedSpace.exp ((τ / 2) • (y N).rate dg)) (q (t₀ + N * τ + τ))
      push_cast
      rw [show t₀ + ((N : ℝ) + 1) * τ = t₀ + N * τ + τ by ring]
      linarith
  exact main.2

/-! ### A concrete case -/

/-- The samples of a turn with the rate 1/2 from the heading 0, sampling time 1/2, and the rate `r` read. -/
noncomputable def turnSample (r : ℝ) (k : ℕ) : Sample :=
  ⟨![0, 0, r], ![0, 0, -1], ![1 * Real.cos (0 - ((k : ℝ) + 1) * (1 / 2 * (1 / 2))), 1 * Real.sin (0 - ((k : ℝ) + 1) * (1 / 2 * (1 / 2))), 0]⟩

theorem turnSample_turning (r : ℝ) : Turning plainG plainA plainM (1 / 2) (1 / 2) 0 1 1 0 r (turnSample r) :=
  ⟨fun _ => plainG_rate _ _ _, fun _ => plainA_correct _ _ _, fun _ => plainM_correct _ _ _⟩

/-- C116: the gains are 1/2.  The filter whose gyrometer reads zero is behind by `(1 - 2⁻ᴺ) / 4`, the one whose gyrometer
reads the true rate by nearly twice as much. -/
example (N : ℕ) (hN : 1 ≤ N) : ∃ s, Started (args .MARG false (1 / 2) (1 / 2) (yaw 0)) s ∧ Shows s (yaw 0) ∧
    Shows (feeds s ((List.range N).map (turnSample 0))) (yaw (0 - N * (1 / 2 * (1 / 2)) + 1 / 4 * (1 - (1 / 2) ^ N))) ∧
    Shows (feeds s ((List.range N).map (turnSample (1 / 2))))
      (yaw (0 - N * (1 / 2 * (1 / 2)) + (1 / 4 + 2 * Real.arctan (1 / 8)) * (1 - (1 / 2) ^ N))) ∧
    ∃ e₁ e₂, 0 ≤ e₂ ∧ e₂ < e₁ ∧ e₁ < Real.pi ∧
      Shows (feeds s ((List.range N).map (turnSample (1 / 2)))) (yaw (0 - N * (1 / 2 * (1 / 2)) + e₁)) ∧
      Shows (feeds s ((List.range N).map (turnSample 0))) (yaw (0 - N * (1 / 2 * (1 / 2)) + e₂)) := by
  obtain ⟨s0, s, -, -, hs, h1, hg, ha, hm⟩ := started .MARG false (1 / 2) (1 / 2) (yaw 0)
  have hset : Aqua.Set (args .MARG false (1 / 2) (1 / 2) (yaw 0)) plainG plainA plainM s := ⟨hs, hg rfl, ha, hm⟩
  have hf := fixed_args (show (0 : ℝ) ≤ 1 / 2 ∧ (1 / 2 : ℝ) ≤ 1 by norm_num) (show (0 : ℝ) ≤ 1 / 2 ∧ (1 / 2 : ℝ) ≤ 1 by norm_num)
    (yaw 0)
  have hpi := Real.pi_gt_three
  have hp : pull (1 / 2) 1 = 1 / 2 := pull_half (by rw [abs_one]; linarith)
  have ht : (9 / 10 : ℝ) < √((1 + 1) / 2) := by norm_num
  have hb : epsilon ℝ < 1 := AR.eps_lt_one
  have hu : (1 / 2 : ℝ) < Real.cos (1 / 2) := by
    have := Real.one_sub_sq_div_two_le_cos (x := 1 / 2)
    linarith
  have a0 : 0 < Real.arctan (1 / 8) := Real.arctan_pos.mpr (by norm_num)
  have a1 : Real.arctan (1 / 8) ≤ 1 / 8 := by
    have := Real.le_tan a0.le (Real.arctan_lt_pi_div_two _)
    rwa [Real.tan_arctan] at this
  have k1 := C116_turn (δ := 1 / 4) (X := 1) hset hf h1 (turnSample_turning 0) one_pos ht hb (by norm_num) (by norm_num)
    (by norm_num) (by linarith) (by rw [hp]; norm_num) hu N
  have k2 := C116_turn (δ := 1 / 4 + 2 * Real.arctan (1 / 8)) (X := 1) hset hf h1 (turnSample_turning (1 / 2)) one_pos ht hb
    (by norm_num) (by linarith) (by norm_num) (by linarith) (by rw [hp]; linarith) hu N
  have e : (1 : ℝ) - 1 / 2 = 1 / 2 := by norm_num
  rw [e, C116_lag_half (by linarith) (by linarith)] at k1 k2
  exact ⟨s, hs, h1, k1.2.2, k2.2.2, C116_worse (X := 1) hset hset hf hf (by norm_num) (by norm_num) h1 h1 (by norm_num)
    (turnSample_turning _) (turnSample_turning 0) one_pos ht hb (by norm_num) (by linarith) (by rw [hp]; norm_num) hu hN⟩

/-- C116: the gains are 0.  The gyrometer reads the rate 1/2 for any number of updates; the attitude follows the turn with
this rate. -/
example (N : ℕ) : ∃ (y : ℕ → Sample) (s : Aqua XR) (B : Quaternion ℝ), Started (args .MARG false 0 0 1) s ∧
    (∀ k, (y k).rate plainG = mkQ 0 0 0 (1 / 2)) ∧ (∀ k < N, (feed (y k) (feeds s ((List.range k).map y))).1 = .ok ()) ∧
    Shows (feeds s ((List.range N).map y)) B ∧ ‖B - yaw (1 / 2 * (N * (1 / 2)))‖ ≤ N * ((1 / 8) ^ 3 / 3) := by
  obtain ⟨s0, s, -, -, hs, h1, hg, ha, hm⟩ := started .MARG false 0 0 1
  have hset : Aqua.Set (args .MARG false 0 0 1) plainG plainA plainM s := ⟨hs, hg rfl, ha, hm⟩
  have hf := fixed_args (show (0 : ℝ) ≤ 0 ∧ (0 : ℝ) ≤ 1 by norm_num) (show (0 : ℝ) ≤ 0 ∧ (0 : ℝ) ≤ 1 by norm_num) 1
  have y1 : yaw 0 = 1 := by simp [yaw, mkQ_one]
  obtain ⟨y, hy⟩ : ∃ y, Turning plainG plainA plainM (1 / 2) (-(4 * Real.arctan (1 / 2 * (1 / 2) / 2))) 0 1 1 0 (1 / 2) y :=
    ⟨fun k => ⟨![0, 0, 1 / 2], ![0, 0, -1], ![_, _, 0]⟩, fun _ => plainG_rate _ _ _, fun _ => plainA_correct _ _ _,
      fun _ => plainM_correct _ _ _⟩
  have hok := fun k => (C116_turn (δ := 0) (X := 0) hset hf (y1 ▸ h1) hy one_pos (by norm_num) AR.eps_lt_one (by ring) le_rfl
    le_rfl Real.pi_pos (by rw [pull_zero]) (by norm_num) k).2.1
  obtain ⟨B, k1, k2, k3⟩ := C116_free (t₀ := 0) (η := 0) (h := 1 / 8) (N := N) (C116_motion (1 / 2) 0).1 hset hf (by norm_num) h1
    norm_one (fun k _ => hok k) (fun k _ => ⟨_, ⟨le_rfl, by norm_num⟩, by rw [hy.rate k]; simp⟩) (fun k _ => by
      rw [hy.rate k, mkQ_smul, norm_mkQ, Real.sqrt_le_left (by norm_num)]
      norm_num)
  refine ⟨y, s, B, hs, hy.rate, fun k _ => hok k, k1, ?_⟩
  simp only [mul_zero, sub_zero, y1, zero_add, sub_self, norm_zero] at k3
  norm_num at k3 ⊢
  exact k3

end
end Verif
