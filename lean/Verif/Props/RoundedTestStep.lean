import Verif.Props.RoundedTestAqua

/-
C133: one update of the AQUA filter of the test of `open_ahrs/src/lib.rs` in binary32.
-/

set_option linter.unusedSectionVars false
set_option linter.unusedSimpArgs false

namespace Verif
open Scalar Finset Quaternion

variable {F : Type} [Scalar F] [R : Rounded F]

namespace AhrsTest
open Ahrs (maxStep)
open Aqua (accQ magPos lerpQ unitOf predQ unrot dir)

/-! ### The readings -/

theorem gyr_reads {g : Gyrometer F} (hg : Gyrometer.Reachable g) (hc : g.getConfig = .ok .default) {x y z : F} (hx : Finite x)
    (hy : Finite y) (hz : Finite z) {c r : ℝ} (hr : ‖mkQ 0 ⟪x⟫ ⟪y⟫ ⟪z⟫ - mkQ 0 0 c 0‖ ≤ r) (r1 : r ≤ 1) (c0 : 1 ≤ c) (c1 : c ≤ 10) :
    ∃ u v w, Gyrometer.Reads .default x y z u v w ∧ ‖mkQ 0 ⟪u⟫ ⟪v⟫ ⟪w⟫ - c • mkQ 0 0 1 0‖ ≤ r + 45 / 10 ^ 6 := by
  obtain ⟨u, v, w, hrd, d1, -⟩ := GyrometerConfig.reads (C := 1) hg hc (plain_within hx hy hz hr r1 c0 c1) plain_upTo
    (by norm_num) (by norm_num) (by norm_num)
  rw [plain_rate] at d1
  simp only at d1
  refine ⟨u, v, w, hrd, ?_⟩
  have e : (c • mkQ 0 0 1 0 : Quaternion ℝ) = mkQ 0 0 c 0 := by rw [mkQ_smul]; simp
  rw [e]
  refine (norm_sub_le_norm_sub_add_norm_sub _ (mkQ 0 ⟪x⟫ ⟪y⟫ ⟪z⟫) _).trans ?_
  norm_num at d1 ⊢
  linarith

theorem mkQ_dist {a b c x y z e : ℝ} (h1 : |a - x| ≤ e) (h2 : |b - y| ≤ e) (h3 : |c - z| ≤ e) :
    ‖mkQ 0 a b c - mkQ 0 x y z‖ ≤ 2 * e := by
  have e0 : 0 ≤ e := (abs_nonneg _).trans h1
  rw [show mkQ 0 a b c - mkQ 0 x y z = mkQ 0 (a - x) (b - y) (c - z) by apply Quaternion.ext <;> simp, norm_mkQ]
  refine Real.sqrt_le_iff.mpr ⟨by linarith, ?_⟩
  have k1 := sq_le_sq' (abs_le.mp h1).1 (abs_le.mp h1).2
  have k2 := sq_le_sq' (abs_le.mp h2).1 (abs_le.mp h2).2
  have k3 := sq_le_sq' (abs_le.mp h3).1 (abs_le.mp h3).2
  nlinarith [sq_nonneg e]

theorem acc_reads {g : Accelerometer F} (hg : Accelerometer.Reachable g) (hc : g.getConfig = .ok .default) {x y z : F} (hx : Finite x)
    (hy : Finite y) (hz : Finite z) (bx : |⟪x⟫| ≤ 20) (by' : |⟪y⟫| ≤ 20) (bz : |⟪z⟫| ≤ 20) :
    ∃ u v w, Accelerometer.Reads .default x y z u v w ∧ ‖mkQ 0 ⟪u⟫ ⟪v⟫ ⟪w⟫ - mkQ 0 ⟪x⟫ ⟪y⟫ ⟪z⟫‖ ≤ 3 / 10 ^ 5 := by
  obtain ⟨g', u, v, w, e, e1, e2, e3, a1, a2, a3⟩ := C81_acc (B := 20) (C := 1) hg hc hx hy hz
    (by show |⟪x⟫ - ⟪(lit 0 : F)⟫| ≤ _; rw [R.zero_val, sub_zero]; exact bx)
    (by show |⟪y⟫ - ⟪(lit 0 : F)⟫| ≤ _; rw [R.zero_val, sub_zero]; exact by')
    (by show |⟪z⟫ - ⟪(lit 0 : F)⟫| ≤ _; rw [R.zero_val, sub_zero]; exact bz) (by
      intro k hk
      have : k = lit 1 ∨ k = lit 0 := by
        simp [AccelerometerConfig.default] at hk
        tauto
      rcases this with rfl | rfl
      · rw [R.one_val]; norm_num
      · rw [R.zero_val]; norm_num) (by norm_num) (by norm_num) (by norm_num)
  simp only [AccelerometerConfig.default, R.zero_val, R.one_val, sub_zero, one_mul, zero_mul, add_zero, zero_add, abs_zero] at a1 a2 a3
  refine ⟨u, v, w, ⟨g, g', hg, hc, e, e1, e2, e3⟩, (mkQ_dist (e := 15 / 10 ^ 6) ?_ ?_ ?_).trans (by norm_num)⟩
  · refine a1.trans ?_
    norm_num
    linarith
  · refine a2.trans ?_
    norm_num
    linarith
  · refine a3.trans ?_
    norm_num
    linarith

theorem mag_reads {g : Magnetometer F} (hg : Magnetometer.Reachable g) (hc : g.getConfig = .ok .default) {x y z : F} (hx : Finite x)
    (hy : Finite y) (hz : Finite z) (bx : |⟪x⟫| ≤ 50) (by' : |⟪y⟫| ≤ 50) (bz : |⟪z⟫| ≤ 50) :
    ∃ u v w, Magnetometer.Reads .default x y z u v w ∧ ‖mkQ 0 ⟪u⟫ ⟪v⟫ ⟪w⟫ - mkQ 0 ⟪x⟫ ⟪y⟫ ⟪z⟫‖ ≤ 1 / 10 ^ 4 := by
  obtain ⟨g', u, v, w, e, e1, e2, e3, a1, a2, a3⟩ := C81_mag (B := 50) (C := 1) hg hc hx hy hz
    (by show |⟪x⟫ - ⟪(lit 0 : F)⟫| ≤ _; rw [R.zero_val, sub_zero]; exact bx)
    (by show |⟪y⟫ - ⟪(lit 0 : F)⟫| ≤ _; rw [R.zero_val, sub_zero]; exact by')
    (by show |⟪z⟫ - ⟪(lit 0 : F)⟫| ≤ _; rw [R.zero_val, sub_zero]; exact bz) (by
      intro k hk
      have : k = lit 1 ∨ k = lit 0 := by
        simp [MagnetometerConfig.default] at hk
        tauto
      rcases this with rfl | rfl
      · rw [R.one_val]; norm_num
      · rw [R.zero_val]; norm_num) (by norm_num) (by norm_num) (by norm_num)
  simp only [MagnetometerConfig.default, R.zero_val, R.one_val, sub_zero, one_mul, zero_mul, add_zero, zero_add, abs_zero] at a1 a2 a3
  refine ⟨u, v, w, ⟨g, g', hg, hc, e, e1, e2, e3⟩, (mkQ_dist (e := 4 / 10 ^ 5) ?_ ?_ ?_).trans (by norm_num)⟩
  · refine a1.trans ?_
    norm_num
    linarith
  · refine a2.trans ?_
    norm_num
    linarith
  · refine a3.trans ?_
    norm_num
    linarith

/-! ### The prediction -/

theorem pred_near {A ω : Quaternion ℝ} {p E c r τ : ℝ} (h1 : 1 / 2 ≤ ‖A‖) (hE : ‖‖A‖⁻¹ • A - yQ p‖ ≤ E) (hω : ω.re = 0)
    (hd : ‖ω - c • mkQ 0 0 1 0‖ ≤ r + 45 / 10 ^ 6) (hτ : |τ / 2 - 1 / 200| ≤ 3 / 10 ^ 8) (c0 : 0 ≤ c) (c1 : c ≤ 10) :
    ‖predQ A ω τ - yQ (p + Real.arctan (c / 200))‖ ≤ E + 1002 / 10 ^ 5 * r + 12 / 10 ^ 7 := by
  have nj : ‖(mkQ 0 0 1 0 : Quaternion ℝ)‖ = 1 := by rw [norm_mkQ]; norm_num
  have nc : ‖c • (mkQ 0 0 1 0 : Quaternion ℝ)‖ = c := by
    rw [norm_smul, nj, mul_one, Real.norm_eq_abs, abs_of_nonneg c0]
  have r0 := (norm_nonneg _).trans hd
  obtain ⟨κ, eκ⟩ : ∃ κ, κ = τ / 2 := ⟨_, rfl⟩
  rw [← eκ] at hτ
  have hκ : |κ| ≤ 501 / 10 ^ 5 := (le_of_dist (a := 1 / 200) (by norm_num) hτ).trans (by norm_num)
  have hY : A + (τ / 2) • (A * ω) = A * (1 + κ • ω) := by rw [mul_add, mul_one, mul_smul_comm, eκ]
  have nS := AR.one_le_norm_step hω κ
  have hU : predQ A ω τ = (‖A‖⁻¹ • A) * eulerUnit (κ • ω) := by
    unfold Aqua.predQ Aqua.unitOf
    rw [hY, norm_mul, if_pos (lt_of_lt_of_le Aqua.eps_lt_half (by nlinarith)), mul_inv, eulerUnit, smul_mul_smul_comm]
  have ey : yQ (p + Real.arctan (c / 200)) = yQ p * eulerUnit ((c / 200) • mkQ 0 0 1 0) := by
    rw [eulerUnit_y, yQ_mul]
  have ed := eulerUnit_dist (v := κ • ω) (w := (c / 200) • mkQ 0 0 1 0) (by simp [hω]) (by simp)
  have e5 : κ • ω - (c / 200) • mkQ 0 0 1 0 = κ • (ω - c • mkQ 0 0 1 0) + (κ - 1 / 200) • (c • mkQ 0 0 1 0) := by
    rw [smul_sub, sub_smul, smul_smul, smul_smul, show 1 / 200 * c = c / 200 by ring]
    abel
  have e6 : ‖κ • ω - (c / 200) • mkQ 0 0 1 0‖ ≤ 501 / 10 ^ 5 * (r + 45 / 10 ^ 6) + 3 / 10 ^ 8 * 10 := by
    rw [e5]
    refine (norm_add_le _ _).trans ?_
    rw [norm_smul, norm_smul, Real.norm_eq_abs, Real.norm_eq_abs, nc]
    gcongr
  have nU := norm_eulerUnit (v := κ • ω) (by simp [hω])
  have e7 : (‖A‖⁻¹ • A) * eulerUnit (κ • ω) - yQ p * eulerUnit ((c / 200) • mkQ 0 0 1 0) =
      (‖A‖⁻¹ • A - yQ p) * eulerUnit (κ • ω) + yQ p * (eulerUnit (κ • ω) - eulerUnit ((c / 200) • mkQ 0 0 1 0)) := by
    rw [mul_sub, sub_mul]
    abel
  rw [hU, ey, e7]
  refine (norm_add_le _ _).trans ?_
  rw [norm_mul, norm_mul, nU, yQ_norm, one_mul, mul_one]
  norm_num at e6 ⊢
  linarith

/-! ### One update -/

theorem hundredth [L : Literals F] : Finite (lit (1 / 100) : F) ∧ |⟪(lit (1 / 100) : F)⟫ - 1 / 100| ≤ 1 / 10 ^ 8 := by
  have := lit_apx (F := F) (1 / 100) (by norm_num [abs_le])
  rw [show (((1 / 100 : ℚ)) : ℝ) = 1 / 100 by norm_num] at this
  refine ⟨this.1, this.2.trans ?_⟩
  have hη := rη_le
  rw [show |(1 / 100 : ℝ)| = 1 / 100 by rw [abs_of_pos (by norm_num)]]
  norm_num at hη ⊢
  linarith

theorem nine_tenths [L : Literals F] : Finite (lit (9 / 10) : F) ∧ |⟪(lit (9 / 10) : F)⟫ - 9 / 10| ≤ 1 / 10 ^ 6 := by
  have := lit_apx (F := F) (9 / 10) (by norm_num [abs_le])
  rw [show (((9 / 10 : ℚ)) : ℝ) = 9 / 10 by norm_num] at this
  refine ⟨this.1, this.2.trans ?_⟩
  have hη := rη_le
  rw [show |(9 / 10 : ℝ)| = 9 / 10 by rw [abs_of_pos (by norm_num)]]
  norm_num at hη ⊢
  linarith

set_option maxHeartbeats 1000000 in
theorem aquaStep32 [Halves F] [ScalarLawful F] [Literals F] {i : AquaInit F} {s : Aqua F} (hs : Aqua.Started i s)
    (hmode : i.mode = .MARG) (had : i.adaptive = false) (hα : i.alpha = lit (1 / 100)) (hβ : i.beta = lit (1 / 100))
    (ht : i.tAcc = lit (9 / 10)) (hu : i.tMag = lit (9 / 10)) (hts : i.ts = lit (1 / 100))
    (hcg : s.getGyrometerConfig = .ok .default) (hca : s.getAccelerometerConfig = .ok .default)
    (hcm : s.getMagnetometerConfig = .ok .default) {A : Quaternion ℝ} (hA : Aqua.ShowsF s fun f => qval f = A)
    (k1 : 1 / 2 ≤ ‖A‖) (k2 : ‖A‖ ≤ 2) {p θ E t : ℝ} (hE : ‖‖A‖⁻¹ • A - yQ p‖ ≤ E) (hE2 : E ≤ 196 / 10 ^ 5) (t1 : 1 ≤ t)
    (t2 : t ≤ 49 / 4) {gx gy gz ax ay az mx my mz : F}
    (fg : Finite gx ∧ Finite gy ∧ Finite gz) (fa : Finite ax ∧ Finite ay ∧ Finite az) (fm : Finite mx ∧ Finite my ∧ Finite mz)
    (hg : ‖mkQ 0 ⟪gx⟫ ⟪gy⟫ ⟪gz⟫ - mkQ 0 0 (200 * Real.sin maxStep) 0‖ ≤ 105 / 10 ^ 4 * t)
    (hac : ‖mkQ 0 ⟪ax⟫ ⟪ay⟫ ⟪az⟫ - mkQ 0 (-(981 / 100) * Real.sin (2 * θ)) 0 (-(981 / 100) * Real.cos (2 * θ))‖ ≤ 3 / 10 ^ 4 * t)
    (hmg : ‖mkQ 0 ⟪mx⟫ ⟪my⟫ ⟪mz⟫ - mkQ 0 (48 * Real.cos (incl + 2 * θ)) 0 (-(48 * Real.sin (incl + 2 * θ)))‖ ≤ 151 / 10 ^ 5 * t)
    (hp : 0 < p + Real.arctan (Real.sin maxStep) - θ) (hl : p + Real.arctan (Real.sin maxStep) - θ ≤ 1 / 5) :
    ∃ s' μ, Aqua.update (some gx) (some gy) (some gz) ax ay az mx my mz s = (.ok (), s') ∧ 0 < μ ∧
      μ ≤ (p + Real.arctan (Real.sin maxStep) - θ) / 10 ∧
      Aqua.ShowsF s' fun f => NearUnit f ∧
        ‖qval f - yQ (p + Real.arctan (Real.sin maxStep) - μ)‖ ≤ 151 / 100 * E + 31 / 10 ^ 5 * t := by
  obtain ⟨hr, -⟩ := hs.ready
  have E0 : 0 ≤ E := (norm_nonneg _).trans hE
  obtain ⟨c0, c1⟩ := rate_bounds
  have hσ : 200 * Real.sin maxStep / 200 = Real.sin maxStep := by ring
  -- the readings
  obtain ⟨p', q', r', rg, dg⟩ := gyr_reads hr.gyr hcg fg.1 fg.2.1 fg.2.2 hg (by norm_num; linarith) (by linarith) c1
  have box : ∀ {x y z a b c e B : ℝ}, ‖mkQ 0 x y z - mkQ 0 a b c‖ ≤ e → |a| ≤ B → |b| ≤ B → |c| ≤ B →
      |x| ≤ B + e ∧ |y| ≤ B + e ∧ |z| ≤ B + e := fun {x y z a b c e B} h h1 h2 h3 => by
    obtain ⟨d0, d1, d2, -⟩ := pure_comps (g := ![x, y, z]) (h := ![a, b, c]) h
    exact ⟨le_of_dist h1 d0, le_of_dist h2 d1, le_of_dist h3 d2⟩
  have sc : ∀ {k x : ℝ}, |x| ≤ 1 → 0 ≤ k → |k * x| ≤ k := fun {k x} h h0 => by
    rw [abs_mul, abs_of_nonneg h0]
    exact mul_le_of_le_one_right h0 h
  obtain ⟨ba1, ba2, ba3⟩ := box hac (B := 981 / 100) (by rw [neg_mul, abs_neg]; exact sc (Real.abs_sin_le_one _) (by norm_num))
    (by norm_num) (by rw [neg_mul, abs_neg]; exact sc (Real.abs_cos_le_one _) (by norm_num))
  obtain ⟨bm1, bm2, bm3⟩ := box hmg (B := 48) (sc (Real.abs_cos_le_one _) (by norm_num))
    (by norm_num) (by rw [abs_neg]; exact sc (Real.abs_sin_le_one _) (by norm_num))
  have hA20 : 981 / 100 + 3 / 10 ^ 4 * t ≤ 20 := by norm_num; linarith
  have hM50 : 48 + 151 / 10 ^ 5 * t ≤ 50 := by norm_num; linarith
  obtain ⟨x, y, z, ra, da⟩ := acc_reads hr.acc hca fa.1 fa.2.1 fa.2.2 (ba1.trans hA20) (ba2.trans hA20) (ba3.trans hA20)
  obtain ⟨u, v, w, rm, dm⟩ := mag_reads hr.mag hcm fm.1 fm.2.1 fm.2.2 (bm1.trans hM50) (bm2.trans hM50) (bm3.trans hM50)
  obtain ⟨a, ea⟩ : ∃ a : Fin 3 → ℝ, a = ![⟪x⟫, ⟪y⟫, ⟪z⟫] := ⟨_, rfl⟩
  obtain ⟨m, em⟩ : ∃ m : Fin 3 → ℝ, m = ![⟪u⟫, ⟪v⟫, ⟪w⟫] := ⟨_, rfl⟩
  obtain ⟨a0, ea0⟩ : ∃ a0 : Fin 3 → ℝ, a0 = ![-(981 / 100) * Real.sin (2 * θ), 0, -(981 / 100) * Real.cos (2 * θ)] := ⟨_, rfl⟩
  obtain ⟨m0, em0⟩ : ∃ m0 : Fin 3 → ℝ, m0 = ![48 * Real.cos (incl + 2 * θ), 0, -(48 * Real.sin (incl + 2 * θ))] := ⟨_, rfl⟩
  have hda : ‖pureQ a - pureQ a0‖ ≤ 3 / 10 ^ 4 * t + 3 / 10 ^ 5 := by
    rw [ea, ea0]
    refine (norm_sub_le_norm_sub_add_norm_sub _ (mkQ 0 ⟪ax⟫ ⟪ay⟫ ⟪az⟫) _).trans ?_
    rw [add_comm]
    exact add_le_add hac da
  have hdm : ‖pureQ m - pureQ m0‖ ≤ 151 / 10 ^ 5 * t + 1 / 10 ^ 4 := by
    rw [em, em0]
    refine (norm_sub_le_norm_sub_add_norm_sub _ (mkQ 0 ⟪mx⟫ ⟪my⟫ ⟪mz⟫) _).trans ?_
    rw [add_comm]
    exact add_le_add hmg dm
  have nA0 : ‖pureQ a0‖ = 981 / 100 := by
    rw [norm_pureQ, norm3, ea0]
    show √((-(981 / 100) * Real.sin (2 * θ)) ^ 2 + 0 ^ 2 + (-(981 / 100) * Real.cos (2 * θ)) ^ 2) = _
    rw [show (-(981 / 100) * Real.sin (2 * θ)) ^ 2 + 0 ^ 2 + (-(981 / 100) * Real.cos (2 * θ)) ^ 2 = (981 / 100) ^ 2 by
      linear_combination (981 / 100) ^ 2 * Real.sin_sq_add_cos_sq (2 * θ)]
    exact Real.sqrt_sq (by norm_num)
  -- the prediction
  obtain ⟨ω, hω⟩ : ∃ ω, ω = mkQ 0 ⟪p'⟫ ⟪q'⟫ ⟪r'⟫ := ⟨_, rfl⟩
  rw [← hω] at dg
  have hω0 : ω.re = 0 := by rw [hω]; rfl
  have hτ := half_period (F := F)
  rw [← hts] at hτ
  obtain ⟨P, hP⟩ : ∃ P, P = predQ A ω ⟪i.ts⟫ := ⟨_, rfl⟩
  have hPd := pred_near k1 hE hω0 dg hτ (by linarith) c1
  rw [hσ, ← hP] at hPd
  generalize Real.arctan (Real.sin maxStep) = σ at *
  obtain ⟨eP, heP⟩ : ∃ eP, eP = E + 1002 / 10 ^ 5 * (105 / 10 ^ 4 * t) + 12 / 10 ^ 7 := ⟨_, rfl⟩
  rw [← heP] at hPd
  have eP1 : eP ≤ 326 / 10 ^ 5 := by rw [heP]; norm_num at hE2 ⊢; linarith
  have hP1 : ‖P‖ = 1 := by
    rw [hP]
    exact Aqua.predQ_unit (lt_of_lt_of_le Aqua.eps_lt_half k1) hω0
  obtain ⟨x1, x2, x3, x4, x5, μ, m1, m2, x6⟩ := acc_exact (a := a0) (ψ := p + σ) (θ := θ) (by rw [ea0]; rfl) (by rw [ea0]; rfl)
    (by rw [ea0]; rfl) hp hl
  have hv := unrot_lip hP1 (yQ_norm (p + σ)) hPd hda nA0.le
  obtain ⟨eV, heV⟩ : ∃ eV, eV = 3 / 10 ^ 4 * t + 3 / 10 ^ 5 + 2 * eP * (981 / 100) := ⟨_, rfl⟩
  rw [← heV] at hv
  have eV1 : eV ≤ 1 / 10 := by rw [heV]; norm_num at eP1 ⊢; linarith
  obtain ⟨y1, y2, y3⟩ := accQ_lip hv eV1 x1 x2 x3
  obtain ⟨fα, dα⟩ := hundredth (F := F)
  obtain ⟨f9, d9⟩ := nine_tenths (F := F)
  obtain ⟨z1, z2, z3⟩ := lerpQ_lip y1 (by linarith) x4 x5 dα
  rw [x6] at z1
  obtain ⟨B, hB⟩ : ∃ B, B = P * lerpQ ⟪i.alpha⟫ (accQ (unrot P a)) := ⟨_, rfl⟩
  rw [hα] at hB
  have hB1 : ‖B‖ = 1 := by rw [hB, norm_mul, hP1, z2, one_mul]
  have eb : yQ (p + σ - μ) = yQ (p + σ) * yQ (-μ) := by rw [yQ_mul, sub_eq_add_neg]
  obtain ⟨eB, heB⟩ : ∃ eB, eB = eP + (2002 / 10 ^ 5 * eV + 8 / 10 ^ 8) := ⟨_, rfl⟩
  have hBd : ‖B - yQ (p + σ - μ)‖ ≤ eB := by
    rw [hB, eb, show P * lerpQ ⟪(lit (1 / 100) : F)⟫ (accQ (unrot P a)) - yQ (p + σ) * yQ (-μ) =
      (P - yQ (p + σ)) * lerpQ ⟪(lit (1 / 100) : F)⟫ (accQ (unrot P a)) +
        yQ (p + σ) * (lerpQ ⟪(lit (1 / 100) : F)⟫ (accQ (unrot P a)) - yQ (-μ)) by noncomm_ring, heB]
    refine (norm_add_le _ _).trans ?_
    rw [norm_mul, norm_mul, z2, yQ_norm, one_mul, mul_one]
    exact add_le_add hPd z1
  have eB1 : eB ≤ 47 / 10 ^ 4 := by rw [heB, heV]; norm_num at eP1 ⊢; linarith
  -- the field
  have hι : incl = 6108655 / 10 ^ 7 := by unfold incl; norm_num
  obtain ⟨w1, w2, w3⟩ := mag_exact (m := m0) (b := p + σ - μ) (ι := incl) (θ := θ) (by rw [em0]; rfl) (by rw [em0]; rfl)
    (by rw [em0]; rfl) (by rw [abs_le, hι]; norm_num; constructor <;> linarith)
  obtain ⟨v1, v2⟩ := dir_lip hdm w1 (by norm_num; linarith)
  have hx := unrot_lip hB1 (yQ_norm (p + σ - μ)) hBd v1 v2.le
  obtain ⟨eX, heX⟩ : ∃ eX, eX = (151 / 10 ^ 5 * t + 1 / 10 ^ 4) / 24 + 2 * eB * 1 := ⟨_, rfl⟩
  rw [← heX] at hx
  have eX1 : eX ≤ 1 / 2 / 40 := by rw [heX]; norm_num at eB1 ⊢; linarith
  obtain ⟨-, -, -, hh⟩ := pure_comps hx
  obtain ⟨g1, g2⟩ := Aqua.magPos_close w2 (by norm_num) hh eX1
  rw [w3] at g2
  obtain ⟨Q, hQ⟩ : ∃ Q, Q = magPos (unrot B (dir m) 0) (unrot B (dir m) 1) := ⟨_, rfl⟩
  rw [← hQ] at g2
  have g3 : ‖Q - 1‖ ≤ 206 / 100 * eX := by linarith
  have hQre : 9 / 10 + 6 / 100 ≤ Q.re := by
    have := (Aqua.abs_re_le (Q - 1)).trans g3
    have h1 := (abs_le.mp this).1
    rw [Quaternion.re_sub, Quaternion.re_one] at h1
    norm_num at eX1 h1 ⊢
    linarith
  obtain ⟨j1, j2, -⟩ := lerpQ_lip (P := Q) (Q := 1) g3 (by linarith) (by simp [Quaternion.re_one]) (by simp) dα
  have e1 : lerpQ (1 / 100) (1 : Quaternion ℝ) = 1 := by
    unfold Aqua.lerpQ
    rw [← add_smul, sub_add_cancel, one_smul, Aqua.unitOf_unit norm_one]
  rw [e1] at j1
  -- the update
  obtain ⟨lα, uα⟩ := abs_le.mp dα
  obtain ⟨l9, u9⟩ := abs_le.mp d9
  norm_num at lα uα l9 u9
  have nA : norm3 a ≤ 99 / 10 ∧ 9 ≤ norm3 a := by
    have := abs_le.mp ((abs_norm_sub_norm_le (pureQ a) (pureQ a0)).trans hda)
    rw [nA0, norm_pureQ] at this
    norm_num at this ⊢
    constructor <;> linarith
  have nM : norm3 m ≤ 49 ∧ 9 ≤ norm3 m := by
    have := abs_le.mp ((abs_norm_sub_norm_le (pureQ m) (pureQ m0)).trans hdm)
    rw [w1, norm_pureQ] at this
    norm_num at this ⊢
    constructor <;> linarith
  have nω : ‖ω‖ ≤ 12 := by
    have h2 := norm_sub_norm_le ω ((200 * Real.sin maxStep) • mkQ 0 0 1 0)
    have nj : ‖(mkQ 0 0 1 0 : Quaternion ℝ)‖ = 1 := by rw [norm_mkQ]; norm_num
    rw [norm_smul, nj, mul_one, Real.norm_eq_abs, abs_of_nonneg (by linarith)] at h2
    norm_num at dg
    linarith
  have nτ : |⟪i.ts⟫| ≤ 1 := by
    rw [hts]
    refine abs_le.mpr ⟨?_, ?_⟩ <;> linarith
  obtain ⟨I, J, s', hst, e, hsh⟩ := C111_step (a := a) (m := m) (n := norm3 a) (P := P) (B := B) (h := 39 / 40 * (1 / 2)) hs hmode had hcg hca hcm
    rg ra rm hA k1 k2 (by
      simp only [List.forall_mem_cons, List.not_mem_nil, false_imp_iff, implies_true, and_true]
      rw [hα, hβ, ht, hu]
      refine ⟨⟨fα, by linarith, by linarith⟩, ⟨fα, by linarith, by linarith⟩, ⟨f9, by linarith, by linarith⟩, f9, by linarith, by linarith⟩)
    (by rw [hts]; exact fα) hω (nω.trans (by norm_num))
    ((mul_le_mul nω nτ (abs_nonneg _) (by norm_num)).trans (by norm_num)) (nτ.trans (by norm_num)) ea rfl
    (by norm_num; linarith) (nA.1.trans (by norm_num)) em (by norm_num; linarith) (nM.1.trans (by norm_num)) hP (by linarith) rfl
    (by rw [ht]; linarith) (by rw [hα]; exact hB) (by norm_num) g1 (by
      rw [hu, ← hQ]
      norm_num at hQre ⊢
      linarith)
  refine ⟨s', μ, e, m1, m2, ?_⟩
  -- the two corrections
  have hI : I = lerpQ ⟪(lit (1 / 100) : F)⟫ (accQ (unrot P a)) := by
    have := hst.acc
    rw [← hP, hα, ht] at this
    rcases this with ⟨-, h⟩ | ⟨h, -⟩
    · exact h
    · rw [Aqua.accQ_re (by linarith)] at h
      linarith
  have hPI : P * I = B := by rw [hI, hB]
  have hJ : J = lerpQ ⟪(lit (1 / 100) : F)⟫ Q := by
    have := hst.mag
    rw [← hP, hPI, ← hQ, hβ, hu] at this
    rcases this with ⟨-, h⟩ | ⟨h, -⟩
    · exact h
    · norm_num at hQre
      linarith
  have nBJ : ‖B * J‖ = 1 := by rw [norm_mul, hB1, hJ, j2, one_mul]
  rw [hPI, Aqua.unitOf_unit nBJ, hα, hβ] at hsh
  have hd : ‖B * J - yQ (p + σ - μ)‖ ≤ eB + (2002 / 10 ^ 5 * (206 / 100 * eX) + 8 / 10 ^ 8) := by
    rw [show B * J - yQ (p + σ - μ) = (B - yQ (p + σ - μ)) + B * (J - 1) by noncomm_ring]
    refine (norm_add_le _ _).trans (add_le_add hBd ?_)
    rw [norm_mul, hB1, one_mul, hJ]
    exact j1
  obtain ⟨va, f, h1, h2, h3, h4, h5⟩ := hsh
  refine ⟨va, f, h1, h2, h3, h4, ?_⟩
  refine (norm_sub_le_norm_sub_add_norm_sub _ (B * J) _).trans ((add_le_add h5 hd).trans ?_)
  have q1 : ⟪(lit (1 / 100) : F)⟫ * √((1 - unrot P a 2) / 2) /
      (1 - ⟪(lit (1 / 100) : F)⟫ + ⟪(lit (1 / 100) : F)⟫ * √((1 - unrot P a 2) / 2)) ≤ 1 := by
    have := mul_nonneg (show 0 ≤ ⟪(lit (1 / 100) : F)⟫ by linarith) (show 0 ≤ √((1 - unrot P a 2) / 2) by linarith)
    rw [div_le_one (by linarith)]
    linarith
  have q2 : ⟪(lit (1 / 100) : F)⟫ / (39 / 40 * (1 / 2)) ≤ 21 / 1000 := by
    rw [div_le_iff₀ (by norm_num)]
    norm_num
    linarith
  generalize ⟪(lit (1 / 100) : F)⟫ * √((1 - unrot P a 2) / 2) /
      (1 - ⟪(lit (1 / 100) : F)⟫ + ⟪(lit (1 / 100) : F)⟫ * √((1 - unrot P a 2) / 2)) = Λ at q1 ⊢
  generalize ⟪(lit (1 / 100) : F)⟫ / (39 / 40 * (1 / 2)) = Μ at q2 ⊢
  rw [heX, heB, heV, heP]
  norm_num
  linarith

end AhrsTest
end Verif
