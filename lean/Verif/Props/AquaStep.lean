import Verif.Props.AquaMarg

/-
What one MARG update of a filter without adaptive gain computes (C70) and where it departs from an
alignment with the acceleration (C71).
-/

set_option linter.unusedSectionVars false
set_option linter.unusedSimpArgs false

namespace Verif
open Scalar
namespace Aqua

/-- A MARG filter without adaptive gain whose settings are numbers in their ranges. -/
structure AquaInit.Fixed (i : AquaInit XR) (τ α β t u : ℝ) : Prop where
  mode : i.mode = .MARG
  adaptive : i.adaptive = false
  ts : i.ts = .fin τ
  alpha : i.alpha = .fin α
  beta : i.beta = .fin β
  tAcc : i.tAcc = .fin t
  tMag : i.tMag = .fin u
  alpha_range : 0 ≤ α ∧ α ≤ 1
  beta_range : 0 ≤ β ∧ β ≤ 1
  tAcc_range : 0 ≤ t ∧ t ≤ 1
  tMag_range : 0 ≤ u ∧ u ≤ 1

variable {s s' : Aqua XR} {i : AquaInit XR} {A I J : Quaternion ℝ} {τ α β t u : ℝ}
  {dg : GyrometerConfig ℝ} {da : AccelerometerConfig ℝ} {dm : MagnetometerConfig ℝ}

/-- The corrected readings. -/
noncomputable def _root_.Verif.Sample.rate (dg : GyrometerConfig ℝ) (y : Sample) : Quaternion ℝ :=
  dg.rate (y.g 0) (y.g 1) (y.g 2)
noncomputable def _root_.Verif.Sample.acc (da : AccelerometerConfig ℝ) (y : Sample) : Fin 3 → ℝ :=
  da.correct (y.a 0) (y.a 1) (y.a 2)
noncomputable def _root_.Verif.Sample.field (dm : MagnetometerConfig ℝ) (y : Sample) : Fin 3 → ℝ :=
  dm.correct (y.m 0) (y.m 1) (y.m 2)

/-- One update of a MARG filter in terms of the configured sensors. -/
theorem marg_feed (hs : Started i s) (hmd : i.mode = .MARG) (hA : Shows s A)
    (hg : s.getGyrometerConfig = .ok dg.fin) (ha : s.getAccelerometerConfig = .ok da.fin)
    (hm : s.getMagnetometerConfig = .ok dm.fin) (y : Sample) :
    ∃ s1, MargRun s1 A (y.rate dg) (y.acc da) (y.field dm) (feed y s) ∧ s1.initialized = true ∧
      Settings i s1 ∧ s1.alpha = s.alpha := by
  obtain ⟨hr, k⟩ := hs.ready
  have hmode := k.mode.trans hmd
  obtain ⟨M, m0, m1, m2, m3⟩ := mag_sample hr.mag hr.mag_initialized hm (y.m 0) (y.m 1) (y.m 2)
  obtain ⟨f, G, hf, g0, g1, g2, g3⟩ := C43_gyr_exact hr.gyr (hr.gyr_initialized hmode) (y.g 0) (y.g 1) (y.g 2)
  obtain ⟨C, c0, c1, c2, c3⟩ := acc_sample hr.acc hr.acc_initialized ha (y.a 0) (y.a 1) (y.a 2)
  have hf' : s.getGyrometerConfig = .ok f.fin := hf
  rw [hg] at hf'
  obtain rfl := AR.config_fin_inj (Except.ok.inj hf')
  exact ⟨_, hr.marg_cases hmode (hr.quat_of_shows hA) g0 c0 m0 g1 g2 g3 c1 c2 c3 m1 m2 m3, hr.initialized,
    ⟨k.mode, k.ts, k.adaptive, k.beta, k.t1, k.t2, k.tAcc, k.tMag, k.g, k.h, k.alpha⟩, rfl⟩

theorem fixed_run (hs : Started i s) (hi : AquaInit.Fixed i τ α β t u) (hA : Shows s A)
    (hg : s.getGyrometerConfig = .ok dg.fin) (ha : s.getAccelerometerConfig = .ok da.fin)
    (hm : s.getMagnetometerConfig = .ok dm.fin) (y : Sample) :
    ∃ s1, MargRun s1 A (y.rate dg) (y.acc da) (y.field dm) (feed y s) ∧ s1.initialized = true ∧
      s1.adaptive = false ∧ s1.ts = .fin τ ∧ s1.alpha = .fin α ∧ s1.beta = .fin β ∧ s1.tAcc = .fin t ∧
      s1.tMag = .fin u := by
  obtain ⟨s1, hrun, h1, k, -⟩ := marg_feed hs hi.mode hA hg ha hm y
  exact ⟨s1, hrun, h1, k.adaptive.trans hi.adaptive, k.ts.trans hi.ts, (k.alpha hi.adaptive).trans hi.alpha,
    k.beta.trans hi.beta, k.tAcc.trans hi.tAcc, k.tMag.trans hi.tMag⟩

/-- The rates predict, the acceleration corrects, the field corrects. -/
structure StepTo (A ω : Quaternion ℝ) (a m : Fin 3 → ℝ) (τ α β t u : ℝ) (I J : Quaternion ℝ) : Prop where
  acc : Inter α t (accQ (unrot (predQ A ω τ) a)) I
  ahead : 0 < √(unrot (predQ A ω τ * I) (dir m) 0 * unrot (predQ A ω τ * I) (dir m) 0 +
    unrot (predQ A ω τ * I) (dir m) 1 * unrot (predQ A ω τ * I) (dir m) 1) +
    unrot (predQ A ω τ * I) (dir m) 0
  mag : Inter β u (magPos (unrot (predQ A ω τ * I) (dir m) 0) (unrot (predQ A ω τ * I) (dir m) 1)) J

theorem fixed_inv (hs : Started i s) (hi : AquaInit.Fixed i τ α β t u) (hA : Shows s A)
    (hg : s.getGyrometerConfig = .ok dg.fin) (ha : s.getAccelerometerConfig = .ok da.fin)
    (hm : s.getMagnetometerConfig = .ok dm.fin) {y : Sample} (h : feed y s = (.ok (), s')) :
    ∃ I J, StepTo A (y.rate dg) (y.acc da) (y.field dm) τ α β t u I J ∧
      Shows s' (unitOf (predQ A (y.rate dg) τ * I * J)) := by
  obtain ⟨s1, hrun, k1, k2, k3, k4, k5, k6, k7⟩ := fixed_run hs hi hA hg ha hm y
  rw [h] at hrun
  cases hrun with
  | ok x' t' y' u' τ' I J b ht hx h0 hta ht0 hI hy hy0 hu hu0 hl hJ hb =>
    rw [k2, if_neg (by decide), k4] at hx
    obtain rfl := Ext.fin.inj hx
    obtain rfl := Ext.fin.inj (ht.symm.trans k3)
    obtain rfl := Ext.fin.inj (hta.symm.trans k6)
    obtain rfl := Ext.fin.inj (hy.symm.trans k5)
    obtain rfl := Ext.fin.inj (hu.symm.trans k7)
    exact ⟨I, J, ⟨hI, hl, hJ⟩, shows_of k1 hb⟩

/-- A run with settings in range that can reach its end does. -/
theorem MargRun.succeeds {s1 : Aqua XR} {ω : Quaternion ℝ} {a m : Fin 3 → ℝ} {r : Res AhrsError Unit × Aqua XR}
    (hrun : MargRun s1 A ω a m r) (k1 : s1.adaptive = true → (s1.t2 ≤ᶠ s1.t1) = false) (k3 : s1.ts = .fin τ)
    (k4 : (if s1.adaptive then gainX s1 (.fin (shown a)) else s1.alpha) = .fin α) (k5 : s1.beta = .fin β)
    (k6 : s1.tAcc = .fin t) (k7 : s1.tMag = .fin u) (hα : 0 ≤ α ∧ α ≤ 1) (hβ : 0 ≤ β ∧ β ≤ 1)
    (ht0 : 0 ≤ t ∧ t ≤ 1) (hu0 : 0 ≤ u ∧ u ≤ 1) (h : StepTo A ω a m τ α β t u I J) :
    r.1 = .ok () ∧ r.2.initialized = s1.initialized ∧ QuatIs r.2.attitude (unitOf (predQ A ω τ * I * J)) := by
  cases hrun with
  | early e hh =>
    exfalso
    rcases hh with hh | ⟨hh, h2⟩
    · exact hh ⟨τ, k3⟩
    · rw [k1 hh] at h2
      cases h2
  | acc e x' τ' v ht hx hv he =>
    exfalso
    obtain rfl := Ext.fin.inj (ht.symm.trans k3)
    rw [hx, k4, k6] at he
    rcases interpolate_fin hv hα.1 hα.2 ht0.1 ht0.2 with ⟨w, I', e1, -⟩ | ⟨hn, -⟩
    · rw [he] at e1
      cases e1
    · exact hn ⟨I, h.acc⟩
  | mag e x' t' τ' I' b' ht hx h0 hta ht0 hI hb he =>
    exfalso
    obtain rfl := Ext.fin.inj (hx.trans k4)
    obtain rfl := Ext.fin.inj (ht.symm.trans k3)
    obtain rfl := Ext.fin.inj (hta.symm.trans k6)
    obtain rfl := inter_unique h.acc hI
    rcases he with ⟨hl, -⟩ | ⟨w, hw, he⟩
    · exact absurd h.ahead (not_lt.mpr hl)
    · rw [k5, k7] at he
      rcases interpolate_fin hw hβ.1 hβ.2 hu0.1 hu0.2 with ⟨w, I', e1, -⟩ | ⟨hn, -⟩
      · rw [he] at e1
        cases e1
      · exact hn ⟨J, h.mag⟩
  | ok x' t' y' u' τ' I' J' b ht hx h0 hta ht0 hI hy hy0 hu hu0 hl hJ hb =>
    obtain rfl := Ext.fin.inj (hx.trans k4)
    obtain rfl := Ext.fin.inj (ht.symm.trans k3)
    obtain rfl := Ext.fin.inj (hta.symm.trans k6)
    obtain rfl := Ext.fin.inj (hy.symm.trans k5)
    obtain rfl := Ext.fin.inj (hu.symm.trans k7)
    obtain rfl := inter_unique h.acc hI
    obtain rfl := inter_unique h.mag hJ
    exact ⟨rfl, rfl, hb⟩

theorem fixed_ok (hs : Started i s) (hi : AquaInit.Fixed i τ α β t u) (hA : Shows s A)
    (hg : s.getGyrometerConfig = .ok dg.fin) (ha : s.getAccelerometerConfig = .ok da.fin)
    (hm : s.getMagnetometerConfig = .ok dm.fin) {y : Sample}
    (h : StepTo A (y.rate dg) (y.acc da) (y.field dm) τ α β t u I J) :
    ∃ s', feed y s = (.ok (), s') ∧ Shows s' (unitOf (predQ A (y.rate dg) τ * I * J)) := by
  obtain ⟨s1, hrun, k1, k2, k3, k4, k5, k6, k7⟩ := fixed_run hs hi hA hg ha hm y
  obtain ⟨e1, e2, e3⟩ := hrun.succeeds (fun h => (by rw [k2] at h; cases h)) k3 (by rw [k2, if_neg (by decide), k4]) k5 k6 k7
    hi.alpha_range hi.beta_range hi.tAcc_range hi.tMag_range h
  exact ⟨(feed y s).2, Prod.ext e1 rfl, shows_of (e2.trans k1) e3⟩

theorem pureQ_normSq (a : Fin 3 → ℝ) : Quaternion.normSq (pureQ a) = norm3 a ^ 2 := by
  rw [pureQ, normSq_mkQ, norm3_sq]; ring

theorem normSq_of_norm {Q : Quaternion ℝ} (h : ‖Q‖ = 1) : Quaternion.normSq Q = 1 := by
  rw [Quaternion.normSq_eq_norm_mul_self, h, one_mul]

theorem unrot_norm {P : Quaternion ℝ} (h : Quaternion.normSq P = 1) (a : Fin 3 → ℝ) :
    norm3 (unrot P a) = norm3 a := by
  have := congrArg Quaternion.normSq (unrot_unit h a)
  rw [map_mul, map_mul, Quaternion.normSq_star, h, pureQ_normSq, pureQ_normSq, one_mul, mul_one] at this
  exact (pow_left_inj₀ (norm3_nonneg _) (norm3_nonneg _) two_ne_zero).mp this

theorem inter_one {t : ℝ} {Q I : Quaternion ℝ} (h : Inter 1 t Q I) (hQ : ‖Q‖ = 1) : I = Q := by
  rcases h with ⟨-, rfl⟩ | ⟨-, h1, h2, rfl⟩
  · unfold lerpQ
    rw [sub_self, one_smul, zero_smul, zero_add, unitOf_unit hQ]
  · have hs : Real.sin (Real.arccos Q.re) ≠ 0 := by
      rw [Real.sin_arccos]
      exact (Real.sqrt_pos.mpr (by nlinarith)).ne'
    unfold slerpQ
    rw [sub_self, one_mul, div_self hs, zero_mul, Real.sin_zero, zero_div, zero_smul, one_smul, zero_add]

theorem predQ_rest (hA : ‖A‖ = 1) : predQ A 0 τ = A := by
  unfold predQ
  rw [mul_zero, smul_zero, add_zero, unitOf_unit hA]

theorem eps_lt_norm (hA : ‖A‖ = 1) : epsilon ℝ < ‖A‖ := by rw [hA]; exact AR.eps_lt_one

/-- Both axes at once: a vector seen after two turns. -/
theorem back_mul (P Q : Quaternion ℝ) (a : Quaternion ℝ) : star (P * Q) * a * (P * Q) = star Q * (star P * a * P) * Q := by
  rw [star_mul]
  simp only [mul_assoc]

theorem pureQ_inj {a b : Fin 3 → ℝ} (h : pureQ a = pureQ b) : a = b := by
  funext k
  have h1 := congrArg (fun q : Quaternion ℝ => q.imI) h
  have h2 := congrArg (fun q : Quaternion ℝ => q.imJ) h
  have h3 := congrArg (fun q : Quaternion ℝ => q.imK) h
  fin_cases k
  · exact h1
  · exact h2
  · exact h3

/-- The partial quaternion applied to a vector that is not a unit. -/
theorem accQ_back_any (g : Fin 3 → ℝ) (hg : g 2 < 0) : ∃ z,
    star (accQ g) * pureQ g * accQ g = mkQ 0 (g 0 * (1 - norm3 g ^ 2) / (2 * (1 - g 2)))
      (g 1 * (1 - norm3 g ^ 2) / (2 * (1 - g 2))) z := by
  have hp : 0 < (1 - g 2) / 2 := by linarith
  have hl : 0 < √((1 - g 2) / 2) := Real.sqrt_pos.mpr hp
  have hl2 : √((1 - g 2) / 2) ^ 2 = (1 - g 2) / 2 := Real.sq_sqrt hp.le
  refine ⟨(star (accQ g) * pureQ g * accQ g).imK, ?_⟩
  rw [norm3_sq]
  unfold accQ
  rw [if_pos hg]
  generalize √((1 - g 2) / 2) = l at *
  have hz : g 2 = 1 - 2 * l ^ 2 := by linarith
  unfold pureQ
  rw [hz]
  apply Quaternion.ext <;> simp [Quaternion.re_mul, Quaternion.imI_mul, Quaternion.imJ_mul,
    Quaternion.imK_mul] <;> field_simp
  · ring
  · ring
  · ring

end Aqua

open Aqua
section
variable {s s' : Aqua XR} {i : AquaInit XR} {A : Quaternion ℝ} {τ α β t u : ℝ}
  {dg : GyrometerConfig ℝ} {da : AccelerometerConfig ℝ} {dm : MagnetometerConfig ℝ} {y : Sample}

/-- C70: what a MARG update without adaptive gain computes: the prediction from the rates, times the
interpolated correction from the acceleration, times the interpolated correction from the field, normalised;
and it succeeds exactly when both interpolations exist and the field is not straight behind. -/
theorem C70_step (hs : Started i s) (hi : AquaInit.Fixed i τ α β t u) (hA : Shows s A)
    (hg : s.getGyrometerConfig = .ok dg.fin) (ha : s.getAccelerometerConfig = .ok da.fin)
    (hm : s.getMagnetometerConfig = .ok dm.fin) {Q : Quaternion ℝ} :
    (∃ s', feed y s = (.ok (), s') ∧ Shows s' Q) ↔
      ∃ I J, StepTo A (y.rate dg) (y.acc da) (y.field dm) τ α β t u I J ∧
        Q = unitOf (unitOf (A + (τ / 2) • (A * y.rate dg)) * I * J) := by
  constructor
  · rintro ⟨s', h, hQ⟩
    obtain ⟨I, J, k, hs'⟩ := fixed_inv hs hi hA hg ha hm h
    exact ⟨I, J, k, shows_inj hQ hs'⟩
  · rintro ⟨I, J, k, rfl⟩
    exact fixed_ok hs hi hA hg ha hm k

/-- C70: with both gains 0 a successful MARG update is the normalised Euler step of the angular rate. -/
theorem C70_gyro (hs : Started i s) (hi : AquaInit.Fixed i τ 0 0 t u) (hA : Shows s A) (hn : ‖A‖ = 1)
    (hg : s.getGyrometerConfig = .ok dg.fin) (ha : s.getAccelerometerConfig = .ok da.fin)
    (hm : s.getMagnetometerConfig = .ok dm.fin) (h : feed y s = (.ok (), s')) {B : Quaternion ℝ}
    (hB : B = A + (τ / 2) • (A * y.rate dg)) : Shows s' (‖B‖⁻¹ • B) := by
  obtain ⟨I, J, k, hs'⟩ := fixed_inv hs hi hA hg ha hm h
  rw [inter_zero k.acc, inter_zero k.mag, mul_one, mul_one] at hs'
  have hP := predQ_unit (τ := τ) (eps_lt_norm hn) (show (y.rate dg).re = 0 from rfl)
  rw [unitOf_unit hP] at hs'
  have : predQ A (y.rate dg) τ = ‖B‖⁻¹ • B := by
    rw [predQ, ← hB]
    unfold unitOf
    rw [if_pos]
    by_contra hc
    rw [predQ, ← hB] at hP
    unfold unitOf at hP
    rw [if_neg hc, norm_zero] at hP
    exact zero_ne_one hP
  rwa [this] at hs'

/-- C70: an attitude that agrees with both sensors is kept: at rest, with the acceleration seen along the
negative third axis with norm at least 1 and the field ahead, the update succeeds and shows the same
quaternion, whatever the gains. -/
theorem C70_fixed (hs : Started i s) (hi : AquaInit.Fixed i τ α β t u) (hA : Shows s A) (hn : ‖A‖ = 1)
    (hg : s.getGyrometerConfig = .ok dg.fin) (ha : s.getAccelerometerConfig = .ok da.fin)
    (hm : s.getMagnetometerConfig = .ok dm.fin) (ht : t < 1) (hu : u < 1) (hr : y.rate dg = 0) {n x z : ℝ}
    (h1 : star A * pureQ (y.acc da) * A = mkQ 0 0 0 (-n)) (hn1 : 1 ≤ n)
    (h2 : star A * pureQ (y.field dm) * A = mkQ 0 x 0 z) (hx : 0 < x) (hm1 : epsilon ℝ < norm3 (y.field dm)) :
    ∃ s', feed y s = (.ok (), s') ∧ Shows s' A := by
  have hA1 := normSq_of_norm hn
  have hP : predQ A (y.rate dg) τ = A := by rw [hr, predQ_rest hn]
  -- gravity
  have hg1 : unrot A (y.acc da) = ![0, 0, -n] :=
    pureQ_inj ((unrot_unit hA1 _).trans (h1.trans rfl))
  have hq : accQ ![0, 0, -n] = mkQ √((1 + n) / 2) 0 0 0 := by
    unfold accQ
    rw [if_pos (show (![0, 0, -n] : Fin 3 → ℝ) 2 < 0 from by show -n < 0; linarith)]
    simp
  have hI : Inter α t (accQ (unrot (predQ A (y.rate dg) τ) (y.acc da))) 1 := by
    rw [hP, hg1, hq]
    have h1r : 1 ≤ √((1 + n) / 2) := by rw [Real.one_le_sqrt]; linarith
    refine Or.inl ⟨lt_of_lt_of_le ht h1r, ?_⟩
    have e : ((1 - α) • 1 + α • mkQ √((1 + n) / 2) 0 0 0 : Quaternion ℝ) =
        mkQ (1 - α + α * √((1 + n) / 2)) 0 0 0 := by
      apply Quaternion.ext <;> simp [Quaternion.re_one, Quaternion.imI_one, Quaternion.imJ_one, Quaternion.imK_one]
    unfold lerpQ
    rw [e]
    generalize hc : 1 - α + α * √((1 + n) / 2) = c
    have hc1 : 1 ≤ c := by nlinarith [hi.alpha_range.1]
    have hnc : ‖mkQ c 0 0 0‖ = c := by
      rw [quat_norm, normSq_mkQ]
      rw [show c ^ 2 + 0 ^ 2 + 0 ^ 2 + 0 ^ 2 = c ^ 2 by ring, Real.sqrt_sq (by linarith)]
    unfold unitOf
    rw [hnc, if_pos (lt_of_lt_of_le AR.eps_lt_one hc1), mkQ_smul, inv_mul_cancel₀ (by linarith), mul_zero, mkQ_one]
  -- the field
  have hd := dir_smul hm1
  have hnm := (Linalg.eps_pos.trans hm1)
  have hl : unrot A (dir (y.field dm)) = ![x / norm3 (y.field dm), 0, z / norm3 (y.field dm)] := by
    refine pureQ_inj ((unrot_unit hA1 _).trans ?_)
    rw [hd, mul_smul_comm, smul_mul_assoc] at h2
    have h3 := congrArg (fun q => (norm3 (y.field dm))⁻¹ • q) h2
    simp only [smul_smul, inv_mul_cancel₀ hnm.ne', one_smul, mkQ_smul, mul_zero] at h3
    rw [h3]
    unfold pureQ
    simp only [div_eq_inv_mul]
    rfl
  have l0 : unrot A (dir (y.field dm)) 0 = x / norm3 (y.field dm) := congrFun hl 0
  have l1 : unrot A (dir (y.field dm)) 1 = 0 := congrFun hl 1
  have hc : 0 < x / norm3 (y.field dm) := div_pos hx hnm
  have hst : StepTo A (y.rate dg) (y.acc da) (y.field dm) τ α β t u 1 1 := by
    refine ⟨hI, ?_, ?_⟩
    · rw [hP, mul_one, l0, l1]
      have := Real.sqrt_nonneg (x / norm3 (y.field dm) * (x / norm3 (y.field dm)) + 0 * 0)
      linarith
    · rw [hP, mul_one, l0, l1]
      generalize x / norm3 (y.field dm) = c at hc
      have e1 : √(c * c + 0 * 0) = c := by rw [mul_zero, add_zero, Real.sqrt_mul_self hc.le]
      have e2 : magPos c 0 = 1 := by
        unfold magPos
        rw [e1, zero_div, show c * c + 0 * 0 + c * c = 2 * (c * c + 0 * 0) by ring,
          div_self (Real.sqrt_pos.mpr (by nlinarith)).ne', mkQ_one]
      rw [e2]
      refine Or.inl ⟨by rw [Quaternion.re_one]; exact hu, ?_⟩
      unfold lerpQ
      rw [← add_smul, sub_add_cancel, one_smul, unitOf_unit (norm_one (by simp))]
  obtain ⟨s', e, hs'⟩ := fixed_ok hs hi hA hg ha hm hst
  rw [hP, mul_one, mul_one, unitOf_unit hn] at hs'
  exact ⟨s', e, hs'⟩

/-- C70: with the field gain 1 and an acceleration that is ignored or of norm exactly 1, a successful MARG
update leaves the horizontal part of the field along the positive first axis. -/
theorem C70_heading (hs : Started i s) (hi : AquaInit.Fixed i τ α 1 t u) (hA : Shows s A) (hn : ‖A‖ = 1)
    (hg : s.getGyrometerConfig = .ok dg.fin) (ha : s.getAccelerometerConfig = .ok da.fin)
    (hm : s.getMagnetometerConfig = .ok dm.fin) (hα : α = 0 ∨ norm3 (y.acc da) = 1)
    (hm1 : epsilon ℝ < norm3 (y.field dm)) (h : feed y s = (.ok (), s')) :
    ∃ Q x z, Shows s' Q ∧ ‖Q‖ = 1 ∧ 0 < x ∧ star Q * pureQ (y.field dm) * Q = mkQ 0 x 0 z := by
  obtain ⟨I, J, k, hs'⟩ := fixed_inv hs hi hA hg ha hm h
  have hP := predQ_unit (τ := τ) (eps_lt_norm hn) (show (y.rate dg).re = 0 from rfl)
  have hI : ‖I‖ = 1 := by
    rcases hα with rfl | h1
    · rw [inter_zero k.acc]
      exact norm_one (by simp)
    · refine unit_of_inter hi.alpha_range hi.tAcc_range.1 (accQ_normSq _ ?_) k.acc
      rw [unrot_norm (normSq_of_norm hP), h1]
  have hB : ‖predQ A (y.rate dg) τ * I‖ = 1 := by rw [norm_mul, hP, hI, one_mul]
  have hst := k.ahead
  have hJ := k.mag
  generalize predQ A (y.rate dg) τ * I = B at hB hst hJ hs'
  have hB1 := normSq_of_norm hB
  obtain ⟨hq1, hq2⟩ := magPos_spec hst (z := unrot B (dir (y.field dm)) 2)
  obtain rfl := inter_one hJ (norm_one hq1)
  have hQ : ‖B * magPos (unrot B (dir (y.field dm)) 0) (unrot B (dir (y.field dm)) 1)‖ = 1 := by
    rw [norm_mul, hB, norm_one hq1, one_mul]
  rw [unitOf_unit hQ] at hs'
  have hnm := (Linalg.eps_pos.trans hm1)
  refine ⟨_, norm3 (y.field dm) * √(unrot B (dir (y.field dm)) 0 * unrot B (dir (y.field dm)) 0 +
    unrot B (dir (y.field dm)) 1 * unrot B (dir (y.field dm)) 1),
    norm3 (y.field dm) * unrot B (dir (y.field dm)) 2, hs', hQ, ?_, ?_⟩
  · refine mul_pos hnm ?_
    rcases (Real.sqrt_nonneg (unrot B (dir (y.field dm)) 0 * unrot B (dir (y.field dm)) 0 +
      unrot B (dir (y.field dm)) 1 * unrot B (dir (y.field dm)) 1)).lt_or_eq with h' | h'
    · exact h'
    · exfalso
      have h0 := (Real.sqrt_eq_zero (add_nonneg (mul_self_nonneg _) (mul_self_nonneg _))).mp h'.symm
      rw [← h', zero_add] at hst
      nlinarith [mul_self_nonneg (unrot B (dir (y.field dm)) 1)]
  · rw [back_mul, dir_smul hm1, mul_smul_comm, smul_mul_assoc, mul_smul_comm, smul_mul_assoc, ← unrot_unit hB1]
    rw [show pureQ (unrot B (dir (y.field dm))) = mkQ 0 (unrot B (dir (y.field dm)) 0)
      (unrot B (dir (y.field dm)) 1) (unrot B (dir (y.field dm)) 2) from rfl, hq2, mkQ_smul]
    simp

/-- C71: the acceleration is not normalised in the MARG mode.  At rest, with full gain for the acceleration
and none for the field, from a unit attitude that sees the acceleration as `(x, y, z)`, `z < 0`, a successful
update sees it as a positive multiple of `(x, y) (1 - |a|^2)` horizontally. -/
theorem C71_formula (hs : Started i s) (hi : AquaInit.Fixed i τ 1 0 t u) (hA : Shows s A) (hn : ‖A‖ = 1)
    (hg : s.getGyrometerConfig = .ok dg.fin) (ha : s.getAccelerometerConfig = .ok da.fin)
    (hm : s.getMagnetometerConfig = .ok dm.fin) (hr : y.rate dg = 0) {p q r : ℝ}
    (h1 : star A * pureQ (y.acc da) * A = mkQ 0 p q r) (hz : r < 0) (ht : t < √((1 - r) / 2))
    (h : feed y s = (.ok (), s')) :
    ∃ Q c w, Shows s' Q ∧ ‖Q‖ = 1 ∧ 0 < c ∧ star Q * pureQ (y.acc da) * Q =
      mkQ 0 (c * p * (1 - norm3 (y.acc da) ^ 2)) (c * q * (1 - norm3 (y.acc da) ^ 2)) w := by
  obtain ⟨I, J, k, hs'⟩ := fixed_inv hs hi hA hg ha hm h
  have hA1 := normSq_of_norm hn
  have hP : predQ A (y.rate dg) τ = A := by rw [hr, predQ_rest hn]
  have hg1 : unrot A (y.acc da) = ![p, q, r] := pureQ_inj ((unrot_unit hA1 _).trans (h1.trans rfl))
  have hng : norm3 ![p, q, r] = norm3 (y.acc da) := by rw [← hg1, unrot_norm hA1]
  have hkacc := k.acc
  rw [hP, hg1] at hkacc
  have hre : (accQ ![p, q, r]).re = √((1 - r) / 2) := by
    unfold accQ
    rw [if_pos (show (![p, q, r] : Fin 3 → ℝ) 2 < 0 from hz)]
    rfl
  have hI : I = unitOf (accQ ![p, q, r]) := by
    rcases hkacc with ⟨-, rfl⟩ | ⟨hle, -⟩
    · unfold lerpQ
      rw [sub_self, one_smul, zero_smul, zero_add]
    · rw [hre] at hle
      exact absurd ht (not_lt.mpr hle)
  have hbig := norm_large (accQ_large ![p, q, r])
  have hIn := unitOf_norm hbig
  have hQ : ‖A * I‖ = 1 := by rw [norm_mul, hn, hI, hIn, one_mul]
  rw [inter_zero k.mag, mul_one, hP, unitOf_unit hQ] at hs'
  obtain ⟨w, hw⟩ := accQ_back_any ![p, q, r] hz
  have hc := inv_pos.mpr (Linalg.eps_pos.trans hbig)
  have e1 : star (A * I) * pureQ (y.acc da) * (A * I) = star I * pureQ ![p, q, r] * I := by
    rw [back_mul, h1]
    rfl
  have e2 : I = ‖accQ ![p, q, r]‖⁻¹ • accQ ![p, q, r] := by
    rw [hI]
    unfold unitOf
    rw [if_pos hbig]
  rw [hng] at hw
  generalize ‖accQ ![p, q, r]‖⁻¹ = n at *
  refine ⟨A * I, n * n / (2 * (1 - r)), n * n * w, hs', hQ, ?_, ?_⟩
  · exact div_pos (mul_pos hc hc) (by linarith)
  · rw [e1, e2]
    rw [Quaternion.star_smul, smul_mul_assoc, smul_mul_assoc, mul_smul_comm, hw, smul_smul, mkQ_smul]
    have hr1 : 1 - r ≠ 0 := by linarith
    have e3 : (![p, q, r] : Fin 3 → ℝ) 0 = p := rfl
    have e4 : (![p, q, r] : Fin 3 → ℝ) 1 = q := rfl
    have e5 : (![p, q, r] : Fin 3 → ℝ) 2 = r := rfl
    rw [e3, e4, e5, mul_zero]
    congr 1 <;> field_simp

/-- C71: so the full-gain update aligns the attitude with the acceleration only when the acceleration has
norm 1 or was aligned already. -/
theorem C71_iff (hs : Started i s) (hi : AquaInit.Fixed i τ 1 0 t u) (hA : Shows s A) (hn : ‖A‖ = 1)
    (hg : s.getGyrometerConfig = .ok dg.fin) (ha : s.getAccelerometerConfig = .ok da.fin)
    (hm : s.getMagnetometerConfig = .ok dm.fin) (hr : y.rate dg = 0) {p q r : ℝ}
    (h1 : star A * pureQ (y.acc da) * A = mkQ 0 p q r) (hz : r < 0) (ht : t < √((1 - r) / 2))
    (h : feed y s = (.ok (), s')) :
    (∃ Q w, Shows s' Q ∧ star Q * pureQ (y.acc da) * Q = mkQ 0 0 0 w) ↔
      norm3 (y.acc da) = 1 ∨ (p = 0 ∧ q = 0) := by
  obtain ⟨Q, c, w, k1, k2, k3, k4⟩ := C71_formula hs hi hA hn hg ha hm hr h1 hz ht h
  constructor
  · rintro ⟨Q', w', j1, j2⟩
    obtain rfl := shows_inj k1 j1
    rw [k4] at j2
    have e1 : c * p * (1 - norm3 (y.acc da) ^ 2) = 0 := congrArg (fun q : Quaternion ℝ => q.imI) j2
    have e2 : c * q * (1 - norm3 (y.acc da) ^ 2) = 0 := congrArg (fun q : Quaternion ℝ => q.imJ) j2
    by_cases h1 : norm3 (y.acc da) = 1
    · exact Or.inl h1
    · right
      have hne : 1 - norm3 (y.acc da) ^ 2 ≠ 0 := by
        intro h2
        rcases mul_self_eq_one_iff.mp (show norm3 (y.acc da) * norm3 (y.acc da) = 1 by linarith [sq (norm3 (y.acc da))]) with h | h
        · exact h1 h
        · linarith [norm3_nonneg (y.acc da)]
      simpa [k3.ne', hne] using And.intro e1 e2
  · intro h2
    refine ⟨Q, w, k1, ?_⟩
    rw [k4]
    rcases h2 with h2 | ⟨rfl, rfl⟩
    · rw [h2]; simp
    · simp

end
end Verif
