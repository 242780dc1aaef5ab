import Verif.Props.RoundedMargRest
import Verif.Props.AquaNoise

/-
A MARG filter in binary32 that turns, with noisy readings, stays aligned (C120).
-/

set_option linter.unusedSectionVars false

namespace Verif
open Scalar Finset

namespace Aqua

/-- The readings of an update. -/
structure Readings (F : Type) where
  gx : F
  gy : F
  gz : F
  ax : F
  ay : F
  az : F
  mx : F
  my : F
  mz : F

/-- An update with three readings. -/
def take {F : Type} [Scalar F] (y : Readings F) : Op AhrsError (Aqua F) Unit :=
  update (some y.gx) (some y.gy) (some y.gz) y.ax y.ay y.az y.mx y.my y.mz

theorem predQ_unitOf {A ω : Quaternion ℝ} (hA : epsilon ℝ < ‖A‖) (hω : ω.re = 0) (τ : ℝ) :
    predQ (unitOf A) ω τ = predQ A ω τ := by
  have h0 : 0 < ‖A‖ := Linalg.eps_pos.trans hA
  obtain ⟨r, hr⟩ : ∃ r, r = 1 + (τ / 2) • ω := ⟨_, rfl⟩
  have hr1 : 1 ≤ ‖r‖ := hr ▸ AR.one_le_norm_step hω (τ / 2)
  have e : ∀ B : Quaternion ℝ, B + (τ / 2) • (B * ω) = B * r := fun B => by rw [hr, mul_add, mul_one, mul_smul_comm]
  have h1 := unitOf_norm hA
  unfold predQ
  rw [e, e]
  have e1 : epsilon ℝ < ‖A * r‖ := by rw [norm_mul]; nlinarith
  have e2 : epsilon ℝ < ‖unitOf A * r‖ := by rw [norm_mul, h1, one_mul]; exact lt_of_lt_of_le AR.eps_lt_one hr1
  rw [show unitOf (A * r) = ‖A * r‖⁻¹ • (A * r) by rw [unitOf, if_pos e1],
    show unitOf (unitOf A * r) = ‖unitOf A * r‖⁻¹ • (unitOf A * r) by rw [unitOf, if_pos e2]]
  rw [norm_mul, h1, one_mul, norm_mul, show unitOf A = ‖A‖⁻¹ • A by rw [unitOf, if_pos hA], smul_mul_assoc, smul_smul]
  congr 1
  rw [mul_inv]
  ring

/-- What is seen of a unit vector when the frame and the vector move. -/
theorem seen_move {P U : Quaternion ℝ} (hP : ‖P‖ = 1) (hU : ‖U‖ = 1) {v v' : Fin 3 → ℝ} (hv : norm3 v = 1) {γ : ℝ}
    (hγ : 2 * ‖P - U‖ ≤ γ) : ‖pureQ (unrot P v') - pureQ (unrot U v)‖ ≤ norm3 (v' - v) + γ := by
  rw [unrot_eq hP, unrot_eq hU]
  have e : star P * pureQ v' * P - star U * pureQ v * U =
      star P * (pureQ v' - pureQ v) * P + (star (P - U) * pureQ v * P + star U * pureQ v * (P - U)) := by
    rw [star_sub]; noncomm_ring
  rw [e]
  refine (norm_add_le _ _).trans (add_le_add ?_ ((norm_add_le _ _).trans ?_))
  · rw [norm_mul, norm_mul, norm_star, hP, one_mul, mul_one, pureQ_diff, norm3_pureQ]
  · rw [norm_mul, norm_mul, norm_mul, norm_mul, norm_star, norm_star, hP, hU, norm3_pureQ, hv]
    linarith

theorem dir_unrot {a : Fin 3 → ℝ} (ha : epsilon ℝ < norm3 a) (U : Quaternion ℝ) : norm3 a * unrot U (dir a) 2 = unrot U a 2 := by
  have h0 : norm3 a ≠ 0 := (Linalg.eps_pos.trans ha).ne'
  unfold unrot dir
  simp only [if_pos ha]
  field_simp

/-- Directions are close when the vectors are. -/
theorem dir_close {u v : Fin 3 → ℝ} {p : ℝ} (hp : epsilon ℝ < p) (hu : p ≤ norm3 u) (hv : p ≤ norm3 v) :
    norm3 (dir u - dir v) ≤ norm3 (u - v) / p := by
  have e : ∀ w : Fin 3 → ℝ, p ≤ norm3 w → pureQ (dir w) = ‖pureQ w‖⁻¹ • pureQ w := fun w hw => by
    have h0 : norm3 w ≠ 0 := (Linalg.eps_pos.trans (hp.trans_le hw)).ne'
    rw [norm3_pureQ]
    conv_rhs => rw [dir_smul (hp.trans_le hw)]
    rw [smul_smul, inv_mul_cancel₀ h0, one_smul]
  rw [← norm3_pureQ, ← pureQ_diff, e u hu, e v hv, ← norm3_pureQ (u - v), ← pureQ_diff]
  exact unit_close (Linalg.eps_pos.trans hp) (by rw [norm3_pureQ]; exact hu) (by rw [norm3_pureQ]; exact hv)

theorem tilt_dir {U : Quaternion ℝ} {a : Fin 3 → ℝ} {δ : ℝ} (ha : epsilon ℝ < norm3 a) :
    norm3 a + unrot U a 2 ≤ δ ^ 2 / 2 * norm3 a ↔ 1 + unrot U (dir a) 2 ≤ δ ^ 2 / 2 * 1 := by
  have h0 : 0 < norm3 a := Linalg.eps_pos.trans ha
  have e := dir_unrot ha U
  constructor
  · intro h
    refine le_of_mul_le_mul_left ?_ h0
    linarith
  · intro h
    have := mul_le_mul_of_nonneg_left h h0.le
    linarith

/-- The alignment when the frame and the directions move. -/
theorem aligned_move {P U : Quaternion ℝ} (hP : ‖P‖ = 1) (hU : ‖U‖ = 1) {a a' m m' : Fin 3 → ℝ} {δ ε γ ν μ h c c' : ℝ}
    (hγ : 2 * ‖P - U‖ ≤ γ) (ha : epsilon ℝ < norm3 a) (ha' : epsilon ℝ < norm3 a') (hm : norm3 m = 1) (hm' : norm3 m' = 1)
    (hν : norm3 (dir a' - dir a) + γ ≤ ν) (hμ : norm3 (m' - m) + γ ≤ μ) (h0 : 0 < h) (hδ : 0 ≤ δ) (hε : 0 ≤ ε)
    (hc : c * norm3 a = a 0 * m 0 + a 1 * m 1 + a 2 * m 2) (hh : h ^ 2 + (|c| + δ) ^ 2 ≤ 1)
    (hc' : c' * norm3 a' = a' 0 * m' 0 + a' 1 * m' 1 + a' 2 * m' 2) (hh' : h ^ 2 + (|c'| + (δ + ν)) ^ 2 ≤ 1)
    (hA : Aligned U a m δ ε) : Aligned P a' m' (δ + ν) (ε + μ / h) := by
  have γ0 : 0 ≤ γ := le_trans (by positivity) hγ
  have ν0 : 0 ≤ ν := by have := norm3_nonneg (dir a' - dir a); linarith
  have t1 := (tilt_dir ha).mp hA.tilt
  have t2 := tilt_move ((unrot_norm (normSq_of_norm hU) _).trans (dir_norm ha))
    ((unrot_norm (normSq_of_norm hP) _).trans (dir_norm ha')) one_pos hδ t1
    (((seen_move hP hU (dir_norm ha) hγ).trans hν).trans (mul_one ν).ge) ν0
  have t3 := (tilt_dir ha').mpr t2
  have e1 := hor_ge hU rfl (Linalg.eps_pos.trans ha) hm hδ hA.tilt hc hh
  have e2 := hor_ge hP rfl (Linalg.eps_pos.trans ha') hm' (by linarith) t3 hc' hh'
  exact ⟨t3, heading_move h0 e1 e2 hε hA.heading ((seen_move hP hU hm hγ).trans hμ)⟩

end Aqua

open Aqua
section
variable {F : Type} [Scalar F] [R : Rounded F] [Halves F] [ScalarLawful F] {i : AquaInit F}
  {cg : GyrometerConfig F} {ca : AccelerometerConfig F} {cm : MagnetometerConfig F}

/-- What an update reads: a rate `ω`, an acceleration `a` and a field `m`. -/
abbrev Aqua.Readings.Moving (y : Readings F) (i : AquaInit F) (cg : GyrometerConfig F) (ca : AccelerometerConfig F)
    (cm : MagnetometerConfig F) (ω : Quaternion ℝ) (a m : Fin 3 → ℝ) : Prop :=
  Aqua.Moving i cg ca cm y.gx y.gy y.gz y.ax y.ay y.az y.mx y.my y.mz ω a m

/-- C120: one update in binary32 of a MARG filter with a constant gain, from an attitude aligned up to `δ₀` and `ε₀` with
an acceleration `a` and a field `m`, when the readings are another acceleration `a'` and field `m'` and a rate `ω`. The
directions may change by `ν - ‖ω‖ τ` and `μ - ‖ω‖ τ`. -/
theorem C120_step {s : Aqua F} {y : Readings F} {ω : Quaternion ℝ} {a m a' m' : Fin 3 → ℝ} {c c' δ ε h k E δ₀ ε₀ ν μ : ℝ}
    (hs : Started i s) (hcg : s.getGyrometerConfig = .ok cg) (hca : s.getAccelerometerConfig = .ok ca)
    (hcm : s.getMagnetometerConfig = .ok cm) (hr : y.Moving i cg ca cm ω a' m') (ha : epsilon ℝ < norm3 a)
    (hm : epsilon ℝ < norm3 m) (hc : c * norm3 a = a 0 * dir m 0 + a 1 * dir m 1 + a 2 * dir m 2)
    (hh : h ^ 2 + (|c| + δ) ^ 2 ≤ 1) (hc' : c' * norm3 a' = a' 0 * dir m' 0 + a' 1 * dir m' 1 + a' 2 * dir m' 2)
    (hν : norm3 (dir a' - dir a) + |⟪i.ts⟫| * ‖ω‖ ≤ ν) (hμ : norm3 (dir m' - dir m) + |⟪i.ts⟫| * ‖ω‖ ≤ μ)
    (hC : Fits ⟪i.alpha⟫ ⟪i.beta⟫ ⟪i.tAcc⟫ ⟪i.tMag⟫ (norm3 a') c' (δ + ν) (ε + μ / h) h k E)
    (ht : tiltRate ⟪i.alpha⟫ (norm3 a') * (δ + ν) + 201 / 100 * E ≤ δ + ν) (d0 : 0 ≤ δ₀) (d1 : δ₀ ≤ δ) (e0 : 0 ≤ ε₀) (e1 : ε₀ ≤ ε)
    (hA : ShowsF s fun f => NearUnit f ∧ Aligned (unitOf (qval f)) a (dir m) δ₀ ε₀) :
    ∃ s', take y s = (.ok (), s') ∧
      ShowsF s' fun f => NearUnit f ∧ Aligned (unitOf (qval f)) a' (dir m')
        (tiltRate ⟪i.alpha⟫ (norm3 a') * (δ₀ + ν) + 201 / 100 * E)
        (headRate ⟪i.beta⟫ * (ε₀ + μ / h + 2 * ⟪i.alpha⟫ * norm3 a' * (δ + ν) / h) + 201 / 100 * E / h) := by
  have hω : ω.re = 0 := by obtain ⟨p, q, r, -, h⟩ := hr.rate; rw [h]; rfl
  have hγ0 : 0 ≤ |⟪i.ts⟫| * ‖ω‖ := mul_nonneg (abs_nonneg _) (norm_nonneg _)
  have ν0 : 0 ≤ ν := by have := norm3_nonneg (dir a' - dir a); linarith
  have μ0 : 0 ≤ μ / h := div_nonneg (by have := norm3_nonneg (dir m' - dir m); linarith) hC.h_pos.le
  have heps : ∀ v : Fin 3 → ℝ, 10001 / 10 ^ 8 < norm3 v → epsilon ℝ < norm3 v := fun v hv => lt_trans (by norm_num [epsilon]) hv
  refine move_step hs hcg hca hcm hr rfl hc' hC (by linarith) (by linarith) (by linarith) (by linarith) ?_ ?_
  · have := mul_le_mul_of_nonneg_left d1 (show 0 ≤ tiltRate ⟪i.alpha⟫ (norm3 a') from Real.sqrt_nonneg _)
    linarith
  · obtain ⟨va, f, ea, hv, hf, nf, al⟩ := hA
    refine ⟨va, f, ea, hv, hf, nf, ?_⟩
    have hfn := abs_le.mp nf
    norm_num at hfn
    have hA1 : epsilon ℝ < ‖qval f‖ := lt_of_lt_of_le (by norm_num [epsilon]) (show 1 / 2 ≤ ‖qval f‖ by linarith)
    have hU := unitOf_norm hA1
    rw [← predQ_unitOf hA1 hω]
    have hd := predQ_dist hU hω ⟪i.ts⟫
    have hab := abs_nonneg c
    have hab' := abs_nonneg c'
    have q1 : (|c| + δ₀) ^ 2 ≤ (|c| + δ) ^ 2 := pow_le_pow_left₀ (by linarith) (by linarith) 2
    have q2 : (|c'| + (δ₀ + ν)) ^ 2 ≤ (|c'| + (δ + ν)) ^ 2 := pow_le_pow_left₀ (by linarith) (by linarith) 2
    exact aligned_move (predQ_unit (eps_lt_norm hU) hω) hU (by linarith) ha (heps _ hr.acc_norm.1) (dir_norm hm)
      (dir_norm (heps _ hr.field_norm.1)) hν hμ hC.h_pos d0 e0 hc (by linarith) hc' (by linarith [hC.hor]) al

/-- C120: a MARG filter with a constant gain in binary32, fed with any sequence of readings. `a 0` and `m 0` are the
directions with which the attitude is aligned at first, up to `δ₀` and `ε₀`; `a (j + 1)` and `m (j + 1)` are the
acceleration and the field read at update `j`, and `ω j` is the rate. From one update to the next the direction of the
acceleration changes by at most `ν - ‖ω‖ τ` and that of the field by at most `μ - ‖ω‖ τ`, by motion and noise. Then
every update succeeds, and after it the attitude is a unit quaternion to within 10⁻⁶, aligned with the readings up to
`δ` and `ε`; the errors at first are forgotten at a constant rate. -/
theorem C120_track {S : ℕ → Aqua F} {y : ℕ → Readings F} {ω : ℕ → Quaternion ℝ} {a m : ℕ → Fin 3 → ℝ} {c : ℕ → ℝ}
    {δ ε h k E δ₀ ε₀ ν μ T N : ℝ} (hS : ∀ j, S (j + 1) = (take (y j) (S j)).2)
    (hs : Started i (S 0)) (hcg : (S 0).getGyrometerConfig = .ok cg) (hca : (S 0).getAccelerometerConfig = .ok ca)
    (hcm : (S 0).getMagnetometerConfig = .ok cm) (hr : ∀ j, (y j).Moving i cg ca cm (ω j) (a (j + 1)) (m (j + 1)))
    (ha : epsilon ℝ < norm3 (a 0)) (hm : epsilon ℝ < norm3 (m 0))
    (hc : ∀ j, c j * norm3 (a j) = a j 0 * dir (m j) 0 + a j 1 * dir (m j) 1 + a j 2 * dir (m j) 2)
    (hh : h ^ 2 + (|c 0| + δ) ^ 2 ≤ 1)
    (hν : ∀ j, norm3 (dir (a (j + 1)) - dir (a j)) + |⟪i.ts⟫| * ‖ω j‖ ≤ ν)
    (hμ : ∀ j, norm3 (dir (m (j + 1)) - dir (m j)) + |⟪i.ts⟫| * ‖ω j‖ ≤ μ)
    (hC : ∀ j, Fits ⟪i.alpha⟫ ⟪i.beta⟫ ⟪i.tAcc⟫ ⟪i.tMag⟫ (norm3 (a (j + 1))) (c (j + 1)) (δ + ν) (ε + μ / h) h k E)
    (hT : ∀ j, tiltRate ⟪i.alpha⟫ (norm3 (a (j + 1))) ≤ T) (hN : ∀ j, norm3 (a (j + 1)) ≤ N)
    (htilt : T * (δ + ν) + 201 / 100 * E ≤ δ)
    (hhead : headRate ⟪i.beta⟫ * (ε + μ / h + 2 * ⟪i.alpha⟫ * N * (δ + ν) / h) + 201 / 100 * E / h ≤ ε)
    (d0 : 0 ≤ δ₀) (d1 : δ₀ ≤ δ) (e0 : 0 ≤ ε₀) (e1 : ε₀ ≤ ε)
    (hA : ShowsF (S 0) fun f => NearUnit f ∧ Aligned (unitOf (qval f)) (a 0) (dir (m 0)) δ₀ ε₀) (j : ℕ) :
    (take (y j) (S j)).1 = .ok () ∧
      ShowsF (S j) fun f => NearUnit f ∧ Aligned (unitOf (qval f)) (a j) (dir (m j)) δ ε ∧
        Aligned (unitOf (qval f)) (a j) (dir (m j)) (T ^ j * δ₀ + (T * ν + 201 / 100 * E) / (1 - T))
          (headRate ⟪i.beta⟫ ^ j * ε₀ +
            (headRate ⟪i.beta⟫ * (μ / h + 2 * ⟪i.alpha⟫ * N * (δ + ν) / h) + 201 / 100 * E / h) / (1 - headRate ⟪i.beta⟫)) := by
  have heps : ∀ v : Fin 3 → ℝ, 10001 / 10 ^ 8 < norm3 v → epsilon ℝ < norm3 v := fun v hv => lt_trans (by norm_num [epsilon]) hv
  have hae : ∀ j, epsilon ℝ < norm3 (a j) := fun j => by
    cases j with
    | zero => exact ha
    | succ j => exact heps _ (hr j).acc_norm.1
  have hme : ∀ j, epsilon ℝ < norm3 (m j) := fun j => by
    cases j with
    | zero => exact hm
    | succ j => exact heps _ (hr j).field_norm.1
  have hα := (hr 0).settings i.alpha (by simp)
  have hβ := (hr 0).settings i.beta (by simp)
  have h0 := (hC 0).h_pos
  have k0 : 0 < k := lt_of_lt_of_le (by norm_num) (hC 0).k_ge
  have hγ0 : 0 ≤ |⟪i.ts⟫| * ‖ω 0‖ := mul_nonneg (abs_nonneg _) (norm_nonneg _)
  have ν0 : 0 ≤ ν := by have := norm3_nonneg (dir (a 1) - dir (a 0)); have := hν 0; rw [zero_add] at this; linarith
  have μ0 : 0 ≤ μ / h := div_nonneg (by have := norm3_nonneg (dir (m 1) - dir (m 0)); have := hμ 0; rw [zero_add] at this; linarith) h0.le
  have hhj : ∀ j, h ^ 2 + (|c j| + δ) ^ 2 ≤ 1 := fun j => by
    cases j with
    | zero => exact hh
    | succ j =>
      have := (hC j).hor
      have hab := abs_nonneg (c (j + 1))
      have : (|c (j + 1)| + δ) ^ 2 ≤ (|c (j + 1)| + (δ + ν)) ^ 2 := pow_le_pow_left₀ (by linarith) (by linarith) 2
      linarith
  have E0 : 0 < E := by
    refine lt_of_lt_of_le ?_ (hC 0).err
    have h1 : 0 ≤ accWeight ⟪i.alpha⟫ (norm3 (a (0 + 1))) := by
      have := mul_nonneg hα.2.1 (Real.sqrt_nonneg ((1 + norm3 (a (0 + 1))) / 2))
      exact div_nonneg this (by linarith [hα.2.2])
    have h2 : 0 ≤ ⟪i.beta⟫ / k := div_nonneg hβ.2.1 k0.le
    linarith
  obtain ⟨W, hW⟩ : ∃ W, W = headRate ⟪i.beta⟫ := ⟨_, rfl⟩
  have W0 : 0 ≤ W := hW ▸ Real.sqrt_nonneg _
  have T0 : 0 ≤ T := (Real.sqrt_nonneg _).trans (hT 0)
  have N0 : 0 ≤ N := (norm3_nonneg _).trans (hN 0)
  have δ0 : 0 ≤ δ := d0.trans d1
  have ε0 : 0 ≤ ε := e0.trans e1
  obtain ⟨D, hD⟩ : ∃ D, D = 2 * ⟪i.alpha⟫ * N * (δ + ν) / h := ⟨_, rfl⟩
  have D0 : 0 ≤ D := by rw [hD]; have := hα.2.1; positivity
  have hDj : ∀ j, 2 * ⟪i.alpha⟫ * norm3 (a (j + 1)) * (δ + ν) / h ≤ D := fun j => by
    rw [hD]
    have := hα.2.1
    have := hN j
    gcongr
  obtain ⟨b, hb⟩ : ∃ b, b = 201 / 100 * E / h := ⟨_, rfl⟩
  have b0 : 0 < b := by rw [hb]; positivity
  rw [← hW, ← hD, ← hb] at hhead ⊢
  have T1 : T < 1 := by
    by_contra hcon
    have := mul_le_mul_of_nonneg_right (not_lt.mp hcon) (add_nonneg δ0 ν0)
    linarith
  have W1 : W < 1 := by
    by_contra hcon
    have := mul_le_mul_of_nonneg_right (not_lt.mp hcon) (add_nonneg (add_nonneg ε0 μ0) D0)
    linarith
  have key : ∀ j, Started i (S j) ∧ (S j).getGyrometerConfig = .ok cg ∧ (S j).getAccelerometerConfig = .ok ca ∧
      (S j).getMagnetometerConfig = .ok cm ∧ ∃ x z, 0 ≤ x ∧ x ≤ δ ∧ x ≤ T ^ j * δ₀ + (T * ν + 201 / 100 * E) / (1 - T) ∧
        0 ≤ z ∧ z ≤ ε ∧ z ≤ W ^ j * ε₀ + (W * (μ / h + D) + b) / (1 - W) ∧
        ShowsF (S j) fun f => NearUnit f ∧ Aligned (unitOf (qval f)) (a j) (dir (m j)) x z := by
    intro j
    induction j with
    | zero =>
      refine ⟨hs, hcg, hca, hcm, δ₀, ε₀, d0, d1, ?_, e0, e1, ?_, hA⟩
      · have : 0 ≤ (T * ν + 201 / 100 * E) / (1 - T) := div_nonneg (by linarith [mul_nonneg T0 ν0]) (by linarith)
        linarith
      · have : 0 ≤ (W * (μ / h + D) + b) / (1 - W) := div_nonneg (by linarith [mul_nonneg W0 (add_nonneg μ0 D0)]) (by linarith)
        linarith
    | succ j ih =>
      obtain ⟨i1, i2, i3, i4, x, z, x0, x1, x2, z0, z1, z2, hSh⟩ := ih
      rw [hS j]
      generalize S j = u at *
      have ht' : tiltRate ⟪i.alpha⟫ (norm3 (a (j + 1))) * (δ + ν) + 201 / 100 * E ≤ δ + ν := by
        have := mul_le_mul_of_nonneg_right (hT j) (add_nonneg δ0 ν0)
        linarith
      obtain ⟨s', eu, v, f, f1, f2, f3, f4, f5⟩ := C120_step i1 i2 i3 i4 (hr j) (hae j) (hme j) (hc j) (hhj j) (hc (j + 1))
        (hν j) (hμ j) (hC j) ht' x0 x1 z0 z1 hSh
      obtain ⟨hu, -⟩ := i1.ready
      have hstep : Step u s' := by
        have := frame_update (some (y j).gx) (some (y j).gy) (some (y j).gz) (y j).ax (y j).ay (y j).az (y j).mx (y j).my (y j).mz u
        rwa [show update _ _ _ _ _ _ _ _ _ u = (.ok (), s') from eu] at this
      have hst : Started i s' := by
        obtain ⟨u0, u1, l0, l1, l2⟩ := i1
        have := l2.step (.update (some (y j).gx) (some (y j).gy) (some (y j).gz) (y j).ax (y j).ay (y j).az (y j).mx (y j).my (y j).mz)
        have e : (call (.update (some (y j).gx) (some (y j).gy) (some (y j).gz) (y j).ax (y j).ay (y j).az (y j).mx (y j).my (y j).mz) u).2
            = s' := congrArg Prod.snd eu
        rw [e] at this
        exact ⟨u0, u1, l0, l1, this⟩
      rw [eu]
      have hR0 : 0 ≤ tiltRate ⟪i.alpha⟫ (norm3 (a (j + 1))) := Real.sqrt_nonneg _
      have g1 := mul_le_mul_of_nonneg_right (hT j) (add_nonneg x0 ν0)
      have g2 := mul_le_mul_of_nonneg_left (hDj j) W0
      have D0' : 0 ≤ 2 * ⟪i.alpha⟫ * norm3 (a (j + 1)) * (δ + ν) / h := by
        have := hα.2.1
        have := norm3_nonneg (a (j + 1))
        positivity
      refine ⟨hst, (hstep.gyr hu.gyr).2.2.trans i2, (hstep.acc hu.acc).2.2.trans i3, (hstep.mag hu.mag).2.2.trans i4,
        T * x + (T * ν + 201 / 100 * E), W * z + (W * (μ / h + D) + b), by linarith [mul_nonneg T0 x0, mul_nonneg T0 ν0], ?_,
        decay T0 T1 x2 le_rfl, by linarith [mul_nonneg W0 z0, mul_nonneg W0 (add_nonneg μ0 D0)], ?_, decay W0 W1 z2 le_rfl,
        v, f, f1, f2, f3, f4, f5.mono ?_ ?_ ?_ ?_⟩
      · linarith [mul_le_mul_of_nonneg_left x1 T0]
      · linarith [mul_le_mul_of_nonneg_left z1 W0]
      · linarith [mul_nonneg hR0 (add_nonneg x0 ν0)]
      · linarith
      · rw [← hW, ← hb]
        linarith [mul_nonneg W0 (add_nonneg (add_nonneg z0 μ0) D0')]
      · rw [← hW, ← hb]
        linarith
  obtain ⟨i1, i2, i3, i4, x, z, x0, x1, x2, z0, z1, z2, hSh⟩ := key j
  have ht' : tiltRate ⟪i.alpha⟫ (norm3 (a (j + 1))) * (δ + ν) + 201 / 100 * E ≤ δ + ν := by
    have := mul_le_mul_of_nonneg_right (hT j) (add_nonneg δ0 ν0)
    linarith
  obtain ⟨s', eu, -⟩ := C120_step i1 i2 i3 i4 (hr j) (hae j) (hme j) (hc j) (hhj j) (hc (j + 1)) (hν j) (hμ j) (hC j) ht'
    x0 x1 z0 z1 hSh
  obtain ⟨v, f, l1, l2, l3, l4, l5⟩ := hSh
  exact ⟨congrArg Prod.fst eu, v, f, l1, l2, l3, l4, l5.mono x0 x1 z0 z1, l5.mono x0 x2 z0 z2⟩

/-- C120: the true vertical and the true field. If the attitude is aligned with readings up to `δ` and `ε`, and the readings
differ from the truth by `ν` and `μ` in direction, then it is aligned with the truth up to `δ + ν` and `ε + μ / h`. -/
theorem C120_truth {U : Quaternion ℝ} {a m g b : Fin 3 → ℝ} {δ ε ν μ h c c' : ℝ} (hU : ‖U‖ = 1) (ha : epsilon ℝ < norm3 a)
    (hm : epsilon ℝ < norm3 m) (hg : norm3 g = 1) (hb : norm3 b = 1) (hν : norm3 (g - dir a) ≤ ν) (hμ : norm3 (b - dir m) ≤ μ)
    (h0 : 0 < h) (hδ : 0 ≤ δ) (hε : 0 ≤ ε) (hc : c * norm3 a = a 0 * dir m 0 + a 1 * dir m 1 + a 2 * dir m 2)
    (hh : h ^ 2 + (|c| + δ) ^ 2 ≤ 1) (hc' : c' = g 0 * b 0 + g 1 * b 1 + g 2 * b 2)
    (hh' : h ^ 2 + (|c'| + (δ + ν)) ^ 2 ≤ 1) (hA : Aligned U a (dir m) δ ε) : Aligned U g b (δ + ν) (ε + μ / h) := by
  have hge : epsilon ℝ < norm3 g := by rw [hg]; exact AR.eps_lt_one
  have hgd : dir g = g := by
    funext k
    unfold dir
    rw [if_pos hge, hg, div_one]
  exact aligned_move hU hU (γ := 0) (by rw [sub_self, norm_zero, mul_zero]) ha hge (dir_norm hm) hb
    (by rw [hgd, add_zero]; exact hν) (by rw [add_zero]; exact hμ) h0 hδ hε hc hh (by rw [hg, mul_one]; exact hc') hh' hA

end

/-- The field of the example. -/
noncomputable def Aqua.swing (j : ℕ) : Fin 3 → ℝ := if j % 2 = 0 then ![1596, 160, 1203] else ![1600, 160, 1203]

/-- The readings of the example: a rate of an eighth of a radian per second, and a field that moves back and forth. -/
def Aqua.swings (j : ℕ) : Aqua.Readings F32 :=
  ⟨lit (1 / 8), lit 0, lit 0, lit 0, lit 0, lit (-1), if (j + 1) % 2 = 0 then lit 1596 else lit 1600, lit 160, lit 1203⟩

/-- The arguments of an `init` in the MARG mode with the reference 1 for the norm of the acceleration. -/
def Aqua.margG : AquaInit F32 := { Aqua.margF with g := some (lit 1), t1 := lit (1 / 8), t2 := lit (1 / 4) }

/-- A filter that is fed with a rate about the first axis, a constant acceleration and a field that moves back and forth. -/
theorem swing_filter : ∃ (s0 : Aqua F32) (S : ℕ → Aqua F32), Aqua.new = .ok s0 ∧ Aqua.init Aqua.margG s0 = (.ok (), S 0) ∧
    (∀ j, S (j + 1) = (take (Aqua.swings j) (S j)).2) ∧ ∀ j, (take (Aqua.swings j) (S j)).1 = .ok () ∧
      ShowsF (S j) fun f => NearUnit f ∧ Aligned (unitOf (qval f)) ![0, 0, -1] (dir (Aqua.swing j)) (1 / 50) (3 / 20) := by
  obtain ⟨s0, e0, -⟩ := Aqua.new_fresh (F := F32)
  have h := (C52_iff (a := Aqua.margG) e0).mpr
    ⟨fun _ => by decide +kernel, by decide +kernel, by decide +kernel, .inl ⟨rfl, rfl, rfl, rfl⟩⟩
  have hR : Aqua.Reachable s0 := ⟨s0, e0, .refl _⟩
  have hi : Aqua.init Aqua.margG s0 = (.ok (), (Aqua.init Aqua.margG s0).2) := Prod.ext h rfl
  have hs : Aqua.Started Aqua.margG (Aqua.init Aqua.margG s0).2 := ⟨s0, _, hR, hi, .refl _⟩
  obtain ⟨⟨v, hv, hv'⟩, hcg, hc, hd⟩ := C52_attitude hR hi
  obtain ⟨c', hc', hcg⟩ := hcg rfl
  obtain rfl := Option.some.inj hc'
  have hr := hs.ready.1
  generalize hs1 : (Aqua.init Aqua.margG s0).2 = s at *
  have rg : Gyrometer.Reads (.default : GyrometerConfig F32) (lit (1 / 8)) (lit 0) (lit 0) (lit (1 / 8)) (lit 0) (lit 0) := by
    have e : Gyrometer.update (lit (1 / 8)) (lit 0) (lit 0) s.gyr =
        (.ok (), (Gyrometer.update (lit (1 / 8)) (lit 0) (lit 0) s.gyr).2) :=
      Prod.ext ((C43_gyr_iff hr.gyr hcg).mpr (by decide +kernel)) rfl
    obtain ⟨-, k1, k2, k3, -⟩ := C43_gyr_formula hr.gyr hcg e
    exact ⟨s.gyr, _, hr.gyr, hcg, e, k1.trans (by decide +kernel), k2.trans (by decide +kernel), k3.trans (by decide +kernel)⟩
  have ra : Accelerometer.Reads (.default : AccelerometerConfig F32) (lit 0) (lit 0) (lit (-1)) (lit 0) (lit 0)
      (lit (-1)) := by
    have e : Accelerometer.update (lit 0) (lit 0) (lit (-1)) s.acc =
        (.ok (), (Accelerometer.update (lit 0) (lit 0) (lit (-1)) s.acc).2) :=
      Prod.ext ((C43_acc_iff hr.acc hc).mpr (by decide +kernel)) rfl
    obtain ⟨-, k1, k2, k3, -⟩ := C43_acc_formula hr.acc hc e
    exact ⟨s.acc, _, hr.acc, hc, e, k1.trans (by decide +kernel), k2.trans (by decide +kernel), k3.trans (by decide +kernel)⟩
  have rm : Magnetometer.Reads (.default : MagnetometerConfig F32) (lit 1596) (lit 160) (lit 1203) (lit 1596) (lit 160)
      (lit 1203) := by
    have e : Magnetometer.update (lit 1596) (lit 160) (lit 1203) s.mag =
        (.ok (), (Magnetometer.update (lit 1596) (lit 160) (lit 1203) s.mag).2) :=
      Prod.ext ((C43_mag_iff hr.mag hd).mpr (by decide +kernel)) rfl
    obtain ⟨-, k1, k2, k3, -⟩ := C43_mag_formula hr.mag hd e
    exact ⟨s.mag, _, hr.mag, hd, e, k1.trans (by decide +kernel), k2.trans (by decide +kernel), k3.trans (by decide +kernel)⟩
  have rm' : Magnetometer.Reads (.default : MagnetometerConfig F32) (lit 1600) (lit 160) (lit 1203) (lit 1600) (lit 160)
      (lit 1203) := by
    have e : Magnetometer.update (lit 1600) (lit 160) (lit 1203) s.mag =
        (.ok (), (Magnetometer.update (lit 1600) (lit 160) (lit 1203) s.mag).2) :=
      Prod.ext ((C43_mag_iff hr.mag hd).mpr (by decide +kernel)) rfl
    obtain ⟨-, k1, k2, k3, -⟩ := C43_mag_formula hr.mag hd e
    exact ⟨s.mag, _, hr.mag, hd, e, k1.trans (by decide +kernel), k2.trans (by decide +kernel), k3.trans (by decide +kernel)⟩
  have l0 : ⟪(lit 0 : F32)⟫ = 0 := by rw [val_lit (by decide +kernel)]; norm_num
  have l1 : ⟪(lit 1 : F32)⟫ = 1 := by rw [val_lit (by decide +kernel)]; norm_num
  have l8 : ⟪(lit (1 / 8) : F32)⟫ = 1 / 8 := by rw [val_lit (by decide +kernel)]; norm_num
  have l1' : ⟪(lit (-1) : F32)⟫ = -1 := by rw [val_lit (by decide +kernel)]; norm_num
  have l2 : ⟪(lit (1 / 2) : F32)⟫ = 1 / 2 := by rw [val_lit (by decide +kernel)]; norm_num
  have l3 : ⟪(lit 1596 : F32)⟫ = 1596 := by rw [val_lit (by decide +kernel)]; norm_num
  have l3' : ⟪(lit 1600 : F32)⟫ = 1600 := by rw [val_lit (by decide +kernel)]; norm_num
  have l4 : ⟪(lit 160 : F32)⟫ = 160 := by rw [val_lit (by decide +kernel)]; norm_num
  have l5 : ⟪(lit 1203 : F32)⟫ = 1203 := by rw [val_lit (by decide +kernel)]; norm_num
  have lt : ⟪(Aqua.margG).ts⟫ = 1 / 128 := by
    show ⟪(lit (1 / 128) : F32)⟫ = _
    rw [val_lit (by decide +kernel)]; norm_num
  have la : ⟪(Aqua.margG).alpha⟫ = 1 / 2 := l2
  have lb : ⟪(Aqua.margG).beta⟫ = 1 / 2 := l2
  have lc : ⟪(Aqua.margG).tAcc⟫ = 7 / 8 := by
    show ⟪(lit (7 / 8) : F32)⟫ = _
    rw [val_lit (by decide +kernel)]; norm_num
  have ld : ⟪(Aqua.margG).tMag⟫ = 7 / 8 := lc
  obtain ⟨a, ha⟩ : ∃ a : Fin 3 → ℝ, a = ![0, 0, -1] := ⟨_, rfl⟩
  have a0 : a 0 = 0 := by rw [ha]; rfl
  have a1 : a 1 = 0 := by rw [ha]; rfl
  have a2 : a 2 = -1 := by rw [ha]; rfl
  have na : norm3 a = 1 := by rw [norm3, a0, a1, a2]; norm_num
  have nm : 2005 ≤ norm3 ![1596, 160, 1203] ∧ norm3 ![1596, 160, 1203] ≤ 2010 := by
    unfold norm3
    exact ⟨Real.le_sqrt_of_sq_le (by simp; norm_num), Real.sqrt_le_iff.mpr ⟨by norm_num, by simp; norm_num⟩⟩
  have nm' : 2005 ≤ norm3 ![1600, 160, 1203] ∧ norm3 ![1600, 160, 1203] ≤ 2010 := by
    unfold norm3
    exact ⟨Real.le_sqrt_of_sq_le (by simp; norm_num), Real.sqrt_le_iff.mpr ⟨by norm_num, by simp; norm_num⟩⟩
  have hsw : ∀ j, 2005 ≤ norm3 (swing j) ∧ norm3 (swing j) ≤ 2010 ∧ swing j 2 = 1203 := fun j => by
    unfold swing
    split
    · exact ⟨nm.1, nm.2, rfl⟩
    · exact ⟨nm'.1, nm'.2, rfl⟩
  have heps : epsilon ℝ < 2005 := by norm_num [epsilon]
  have hdir : ∀ j, dir (swing j) 2 = 1203 / norm3 (swing j) := fun j => by
    unfold dir
    rw [if_pos (heps.trans_le (hsw j).1), (hsw j).2.2]
  have hω : ‖mkQ (0 : ℝ) (1 / 8) 0 0‖ = 1 / 8 := by
    rw [norm_mkQ, show (0 : ℝ) ^ 2 + (1 / 8) ^ 2 + 0 ^ 2 + 0 ^ 2 = (1 / 8) ^ 2 by norm_num, Real.sqrt_sq (by norm_num)]
  have hmov : ∀ j, (swings j).Moving Aqua.margG .default .default .default (mkQ 0 (1 / 8) 0 0) a (swing (j + 1)) := by
    intro j
    refine ⟨rfl, rfl, ?_, by rw [la]; norm_num, ⟨by decide +kernel, by rw [lt]; norm_num [abs_of_pos]⟩,
      ⟨_, _, _, rg, by rw [l0, l8]⟩, by rw [hω, lt]; norm_num [abs_of_pos], ⟨_, _, _, ra, by rw [ha, l0, l1']⟩, by rw [na]; norm_num,
      ?_, ⟨lt_of_lt_of_le (by norm_num) (hsw _).1, (hsw _).2.1.trans (by norm_num)⟩⟩
    · intro b hb
      simp only [List.mem_cons, List.not_mem_nil, or_false] at hb
      rcases hb with rfl | rfl | rfl | rfl
      · exact ⟨by decide +kernel, by rw [la]; norm_num⟩
      · exact ⟨by decide +kernel, by rw [lb]; norm_num⟩
      · exact ⟨by decide +kernel, by rw [lc]; norm_num⟩
      · exact ⟨by decide +kernel, by rw [ld]; norm_num⟩
    · unfold swings swing
      split
      · exact ⟨_, _, _, rm, by rw [l3, l4, l5]⟩
      · exact ⟨_, _, _, rm', by rw [l3', l4, l5]⟩
  have hT : tiltRate (1 / 2) 1 ≤ 9 / 10 := by
    unfold tiltRate
    refine Real.sqrt_le_iff.mpr ⟨by norm_num, ?_⟩
    rw [max_self]
    norm_num
  have hW : headRate (1 / 2) ≤ 71 / 100 := Real.sqrt_le_iff.mpr ⟨by norm_num, by norm_num⟩
  have hw : accWeight (1 / 2) 1 = 1 / 2 := by
    unfold accWeight
    rw [show ((1 : ℝ) + 1) / 2 = 1 by norm_num, Real.sqrt_one]
    norm_num
  have hcj : ∀ j, |-(1203 / norm3 (swing j))| ≤ 3 / 5 := fun j => by
    have h1 := (hsw j).1
    rw [abs_neg, abs_of_pos (div_pos (by norm_num) (by linarith)), div_le_iff₀ (by linarith)]
    linarith
  have hC : ∀ j, Fits ⟪(Aqua.margG).alpha⟫ ⟪(Aqua.margG).beta⟫ ⟪(Aqua.margG).tAcc⟫ ⟪(Aqua.margG).tMag⟫ (norm3 a)
      (-(1203 / norm3 (swing (j + 1)))) (1 / 50 + 1 / 1024) (3 / 20 + 3 / 1000 / (39 / 50)) (39 / 50) (19 / 25) (32 / 10 ^ 5) := by
    intro j
    rw [la, lb, lc, ld, na]
    have hcj := hcj (j + 1)
    refine ⟨by norm_num, by norm_num, by norm_num, by norm_num, ?_, by norm_num, by norm_num, ?_, ?_, ?_, by norm_num⟩
    · have := pow_le_pow_left₀ (add_nonneg (abs_nonneg _) (by norm_num)) (add_le_add_left hcj (1 / 50 + 1 / 1024)) 2
      norm_num at this ⊢
      linarith
    · have : 9 / 10 ≤ √(((1 : ℝ) + (1 - (1 / 50 + 1 / 1024) ^ 2 / 2) * 1) / 2) := Real.le_sqrt_of_sq_le (by norm_num)
      linarith
    · refine Real.le_sqrt_of_sq_le ?_
      norm_num
    · rw [hw]; norm_num
  have hA : ShowsF s fun f => NearUnit f ∧ Aligned (unitOf (qval f)) a (dir (swing 0)) 0 (3 / 20) := by
    refine ⟨v, _, hv, hv', forall_lt_four.mpr ⟨?_, ?_, ?_, ?_⟩, ?_⟩
    · exact (by decide +kernel : Finite (lit 1 : F32))
    · exact (by decide +kernel : Finite (lit 0 : F32))
    · exact (by decide +kernel : Finite (lit 0 : F32))
    · exact (by decide +kernel : Finite (lit 0 : F32))
    · have e : qval (seq4 (lit 1 : F32) (lit 0) (lit 0) (lit 0)) = 1 := by
        show mkQ ⟪(lit 1 : F32)⟫ ⟪(lit 0 : F32)⟫ ⟪(lit 0 : F32)⟫ ⟪(lit 0 : F32)⟫ = 1
        rw [l0, l1]
        rfl
      have n1 : ‖(1 : Quaternion ℝ)‖ = 1 := norm_one (map_one _)
      have u1 : ∀ u : Fin 3 → ℝ, unrot 1 u = u := fun u =>
        pureQ_inj ((unrot_eq n1 u).trans (by simp))
      have sw0 : swing 0 = ![1596, 160, 1203] := if_pos rfl
      have nm : norm3 (swing 0) = 2005 := by
        rw [norm3, sw0]
        show √((1596 : ℝ) ^ 2 + 160 ^ 2 + 1203 ^ 2) = 2005
        rw [show (1596 : ℝ) ^ 2 + 160 ^ 2 + 1203 ^ 2 = 2005 ^ 2 by norm_num, Real.sqrt_sq (by norm_num)]
      have m0 : dir (swing 0) 0 = 1596 / 2005 := by
        unfold dir
        rw [if_pos (by rw [nm]; exact heps), nm, sw0]
        rfl
      have m1 : dir (swing 0) 1 = 160 / 2005 := by
        unfold dir
        rw [if_pos (by rw [nm]; exact heps), nm, sw0]
        rfl
      show |‖qval (seq4 (lit 1 : F32) (lit 0) (lit 0) (lit 0))‖ - 1| ≤ _ ∧
        Aligned (unitOf (qval (seq4 (lit 1 : F32) (lit 0) (lit 0) (lit 0)))) _ _ _ _
      rw [e, unitOf_unit n1]
      refine ⟨by rw [n1]; norm_num, ?_, ?_⟩
      · rw [u1, na, a2]; norm_num
      · have hh : hor (dir (swing 0)) = 4 / 5 := by
          unfold hor
          rw [m0, m1, show (1596 / 2005 : ℝ) * (1596 / 2005) + 160 / 2005 * (160 / 2005) = (4 / 5) ^ 2 by norm_num,
            Real.sqrt_sq (by norm_num)]
        rw [u1, hh, m0]
        norm_num
  have hz : norm3 (dir a - dir a) = 0 := by rw [sub_self, ← norm3_pureQ]; simp [pureQ]; rfl
  have hsd : ∀ j, norm3 (swing (j + 1) - swing j) = 4 := fun j => by
    have e : ∀ x : ℝ, x ^ 2 = 16 → norm3 ![x, 0, 0] = 4 := fun x hx => by
      rw [norm3]
      show √(x ^ 2 + 0 ^ 2 + 0 ^ 2) = 4
      rw [hx, show (16 : ℝ) + 0 ^ 2 + 0 ^ 2 = 4 ^ 2 by norm_num, Real.sqrt_sq (by norm_num)]
    unfold swing
    rcases Nat.mod_two_eq_zero_or_one j with h | h
    · rw [if_neg (by omega), if_pos h, ← e 4 (by norm_num)]
      congr 1
      funext k
      fin_cases k <;> norm_num
    · rw [if_pos (by omega), if_neg (by omega), ← e (-4) (by norm_num)]
      congr 1
      funext k
      fin_cases k <;> norm_num
  obtain ⟨S, hS⟩ : ∃ S : ℕ → Aqua F32, S = fun j => Nat.rec s (fun j u => (take (swings j) u).2) j := ⟨_, rfl⟩
  have S0 : S 0 = s := by rw [hS]; rfl
  have S1 : ∀ j, S (j + 1) = (take (swings j) (S j)).2 := fun j => by rw [hS]
  rw [← ha]
  refine ⟨s0, S, e0, by rw [S0]; exact hi, S1, fun j => ?_⟩
  obtain ⟨g1, w, f, g2, g3, g4, g5, g6, -⟩ := C120_track (i := Aqua.margG) (a := fun _ => a) (m := swing)
    (c := fun j => -(1203 / norm3 (swing j))) (ω := fun _ => mkQ 0 (1 / 8) 0 0) (δ := 1 / 50) (ε := 3 / 20) (h := 39 / 50)
    (k := 19 / 25) (E := 32 / 10 ^ 5) (δ₀ := 0) (ε₀ := 3 / 20) (ν := 1 / 1024) (μ := 3 / 1000) (T := 9 / 10) (N := 1)
    S1 (by rw [S0]; exact hs) (by rw [S0]; exact hcg) (by rw [S0]; exact hc) (by rw [S0]; exact hd) hmov
    (by rw [na]; norm_num [epsilon]) (heps.trans_le (hsw 0).1)
    (fun j => by rw [na, a0, a1, a2, hdir]; ring)
    (by
      have := pow_le_pow_left₀ (add_nonneg (abs_nonneg _) (by norm_num)) (add_le_add_left (hcj 0) (1 / 50)) 2
      norm_num at this ⊢
      linarith)
    (fun j => by rw [hz, hω, lt]; norm_num [abs_of_pos])
    (fun j => by
      have h1 := dir_close heps (hsw (j + 1)).1 (hsw j).1
      rw [hsd] at h1
      rw [hω, lt]
      norm_num [abs_of_pos] at h1 ⊢
      linarith) hC
    (fun j => by rw [la, na]; exact hT) (fun j => na.le) (by norm_num) (by rw [la, lb]; linarith) le_rfl (by norm_num)
    (by norm_num) le_rfl (by rw [S0]; exact hA) j
  exact ⟨g1, w, f, g2, g3, g4, g5, g6⟩

/-- The hypotheses of `C120_track` hold for a rate about the first axis, a constant acceleration and a field that moves back
and forth: however many updates follow, they succeed and the attitude stays aligned. -/
example : ∃ S : ℕ → Aqua F32, Aqua.Started Aqua.margG (S 0) ∧ (∀ j, S (j + 1) = (take (Aqua.swings j) (S j)).2) ∧ ∀ j,
    (take (Aqua.swings j) (S j)).1 = .ok () ∧
      ShowsF (S j) fun f => NearUnit f ∧ Aligned (unitOf (qval f)) ![0, 0, -1] (dir (Aqua.swing j)) (1 / 50) (3 / 20) := by
  obtain ⟨s0, S, e0, hi, hS, h⟩ := swing_filter
  exact ⟨S, ⟨s0, _, ⟨s0, e0, .refl _⟩, hi, .refl _⟩, hS, h⟩

end Verif
