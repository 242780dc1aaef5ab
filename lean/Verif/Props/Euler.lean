import Verif.Props.Extract

/-
Euler angles (C64).
-/

namespace Verif
open Scalar Finset

/-- Rotation by an angle around the first, second and third axis. -/
noncomputable def rotX (t : ℝ) : Matrix (Fin 3) (Fin 3) ℝ :=
  !![1, 0, 0; 0, Real.cos t, -Real.sin t; 0, Real.sin t, Real.cos t]
noncomputable def rotY (t : ℝ) : Matrix (Fin 3) (Fin 3) ℝ :=
  !![Real.cos t, 0, Real.sin t; 0, 1, 0; -Real.sin t, 0, Real.cos t]
noncomputable def rotZ (t : ℝ) : Matrix (Fin 3) (Fin 3) ℝ :=
  !![Real.cos t, -Real.sin t, 0; Real.sin t, Real.cos t, 0; 0, 0, 1]

section
variable {a : Vec XR} {q : Quaternion ℝ}

theorem arg_cos_sin {x y c : ℝ} (hc : 0 < c) (h : x ^ 2 + y ^ 2 = c ^ 2) :
    c * Real.cos (Complex.arg ⟨x, y⟩) = x ∧ c * Real.sin (Complex.arg ⟨x, y⟩) = y := by
  have hn : ‖(⟨x, y⟩ : ℂ)‖ = c := by
    rw [Complex.norm_eq_sqrt_sq_add_sq, h, Real.sqrt_sq hc.le]
  have h0 : (⟨x, y⟩ : ℂ) ≠ 0 := by
    intro h0; rw [h0, norm_zero] at hn; linarith
  rw [Complex.cos_arg h0, Complex.sin_arg, hn]
  constructor <;> field_simp

/-- C64: away from gimbal lock the angles returned by `convert_to_euler` describe the matrix of the
quaternion, as yaw after pitch after roll; the pitch lies strictly between -π/2 and π/2. -/
theorem C64_euler (ha : QuatIs a q) (hq : Quaternion.normSq q = 1)
    (hg : (2 * (q.re * q.imJ - q.imK * q.imI)) ^ 2 ≠ 1) :
    ∃ (phi theta psi : ℝ) (m : Mat XR) (D : Nat → Nat → ℝ),
      Quat.convertToEuler a = .ok (.fin phi, .fin theta, .fin psi) ∧ Quat.convertToDcm a = .ok m ∧
      MatIs m 3 3 (fun i j => .fin (D i j)) ∧ toMatrix 3 3 D = rotZ psi * rotY theta * rotX phi ∧
      (-(Real.pi / 2) < theta ∧ theta < Real.pi / 2) ∧ (-Real.pi < phi ∧ phi ≤ Real.pi) ∧
      (-Real.pi < psi ∧ psi ≤ Real.pi) := by
  have hs := unit_sum hq
  obtain ⟨m, e, hm⟩ := dcm_run ha
  obtain ⟨w, hw⟩ : ∃ w, w = q.re := ⟨_, rfl⟩
  obtain ⟨x, hx⟩ : ∃ x, x = q.imI := ⟨_, rfl⟩
  obtain ⟨y, hy⟩ : ∃ y, y = q.imJ := ⟨_, rfl⟩
  obtain ⟨z, hz⟩ : ∃ z, z = q.imK := ⟨_, rfl⟩
  rw [← hw, ← hx, ← hy, ← hz] at hs hg
  -- the entries used by the function
  set s := 2 * (w * y - z * x) with hsdef
  have e21 : (2 * (w * x + y * z)) ^ 2 + (1 - 2 * (x * x + y * y)) ^ 2 = 1 - s ^ 2 := by
    rw [hsdef]
    linear_combination (4 * (x * x + y * y)) * hs
  have e10 : (2 * (w * z + x * y)) ^ 2 + (1 - 2 * (y * y + z * z)) ^ 2 = 1 - s ^ 2 := by
    rw [hsdef]
    linear_combination (4 * (y * y + z * z)) * hs
  have hlt : s ^ 2 < 1 := by
    have h1 : 0 ≤ (2 * (w * x + y * z)) ^ 2 + (1 - 2 * (x * x + y * y)) ^ 2 := by positivity
    rw [e21] at h1
    exact lt_of_le_of_ne (by linarith) hg
  have hs1 : -1 < s ∧ s < 1 := by rw [← abs_lt]; exact (sq_lt_one_iff_abs_lt_one s).mp hlt
  set c := Real.cos (Real.arcsin s) with hc
  have hc2 : c ^ 2 = 1 - s ^ 2 := by rw [hc, Real.cos_arcsin, Real.sq_sqrt (by linarith)]
  have hcpos : 0 < c := by rw [hc, Real.cos_arcsin]; exact Real.sqrt_pos.mpr (by linarith)
  have hsin : Real.sin (Real.arcsin s) = s := Real.sin_arcsin hs1.1.le hs1.2.le
  obtain ⟨p1, p2⟩ := arg_cos_sin (x := 1 - 2 * (x * x + y * y)) (y := 2 * (w * x + y * z)) hcpos
    (by rw [hc2, ← e21]; ring)
  obtain ⟨p3, p4⟩ := arg_cos_sin (x := 1 - 2 * (y * y + z * z)) (y := 2 * (w * z + x * y)) hcpos
    (by rw [hc2, ← e10]; ring)
  refine ⟨Complex.arg ⟨1 - 2 * (x * x + y * y), 2 * (w * x + y * z)⟩, Real.arcsin s,
    Complex.arg ⟨1 - 2 * (y * y + z * z), 2 * (w * z + x * y)⟩, m, dcmOf q, ?_, e, hm, ?_, ?_, ?_, ?_⟩
  · have l1 : (lit 1 : XR) = .fin 1 := Ext.lit_one
    have l2 : (lit 2 : XR) = .fin 2 := lit_two
    unfold Quat.convertToEuler
    simp only [Quat.getQw_eq ha, Quat.getQx_eq ha, Quat.getQy_eq ha, Quat.getQz_eq ha, Res.ok_bind,
      l1, l2, Ext.mul_fin, Ext.add_fin, Ext.sub_fin, ← hw, ← hx, ← hy, ← hz, Ext.atan2_fin]
    rw [Ext.asin_fin ⟨hs1.1.le, hs1.2.le⟩]
    rfl
  · set cp := Real.cos (Complex.arg ⟨1 - 2 * (x * x + y * y), 2 * (w * x + y * z)⟩)
    set sp := Real.sin (Complex.arg ⟨1 - 2 * (x * x + y * y), 2 * (w * x + y * z)⟩)
    set cy := Real.cos (Complex.arg ⟨1 - 2 * (y * y + z * z), 2 * (w * z + x * y)⟩)
    set sy := Real.sin (Complex.arg ⟨1 - 2 * (y * y + z * z), 2 * (w * z + x * y)⟩)
    have hd : toMatrix 3 3 (dcmOf q) = !![w * w + x * x - y * y - z * z, 2 * (x * y - w * z),
        2 * (x * z + w * y); 2 * (x * y + w * z), 1 - 2 * (x * x + z * z), 2 * (y * z - w * x);
        2 * (x * z - w * y), 2 * (w * x + y * z), 1 - 2 * (x * x + y * y)] := by
      rw [hw, hx, hy, hz]
      ext i j
      fin_cases i <;> fin_cases j <;> simp [toMatrix, dcmOf, tbl]
    have hp : rotZ (Complex.arg ⟨1 - 2 * (y * y + z * z), 2 * (w * z + x * y)⟩) *
        rotY (Real.arcsin s) * rotX (Complex.arg ⟨1 - 2 * (x * x + y * y), 2 * (w * x + y * z)⟩) =
        !![cy * c, cy * s * sp - sy * cp, cy * s * cp + sy * sp;
          sy * c, sy * s * sp + cy * cp, sy * s * cp - cy * sp;
          -s, c * sp, c * cp] := by
      rw [rotX, rotY, rotZ, hsin]
      ext i j
      fin_cases i <;> fin_cases j <;>
        simp [Matrix.mul_apply, Fin.sum_univ_three] <;> first | rfl | ring
    have hc0 : c ^ 2 ≠ 0 := by positivity
    have k : ∀ u v : ℝ, c ^ 2 * u = c ^ 2 * v → u = v := fun u v h => mul_left_cancel₀ hc0 h
    have q1 : c * cp = w * w - x * x - y * y + z * z := by linarith
    have q3 : c * cy = w * w + x * x - y * y - z * z := by linarith
    have hN : c ^ 2 = (w * w + x * x + y * y + z * z) ^ 2 - s ^ 2 := by rw [hs, hc2]; norm_num
    have d11 : 1 - 2 * (x * x + z * z) = w * w - x * x + y * y - z * z := by linarith
    have r01 : 2 * (x * y - w * z) = cy * s * sp - sy * cp := by
      apply k
      have h1 : c ^ 2 * (cy * s * sp - sy * cp) = (c * cy) * s * (c * sp) - 1 * ((c * sy) * (c * cp)) := by
        ring
      rw [h1, q1, q3, p2, p4, hN, ← hs, hsdef]
      ring
    have r02 : 2 * (x * z + w * y) = cy * s * cp + sy * sp := by
      apply k
      have h1 : c ^ 2 * (cy * s * cp + sy * sp) = (c * cy) * s * (c * cp) + 1 * ((c * sy) * (c * sp)) := by
        ring
      rw [h1, q1, q3, p2, p4, hN, ← hs, hsdef]
      ring
    have r11 : 1 - 2 * (x * x + z * z) = sy * s * sp + cy * cp := by
      rw [d11]
      apply k
      have h1 : c ^ 2 * (sy * s * sp + cy * cp) = (c * sy) * s * (c * sp) + 1 * ((c * cy) * (c * cp)) := by
        ring
      rw [h1, q1, q3, p2, p4, hN, ← hs, hsdef]
      ring
    have r12 : 2 * (y * z - w * x) = sy * s * cp - cy * sp := by
      apply k
      have h1 : c ^ 2 * (sy * s * cp - cy * sp) = (c * sy) * s * (c * cp) - 1 * ((c * cy) * (c * sp)) := by
        ring
      rw [h1, q1, q3, p2, p4, hN, ← hs, hsdef]
      ring
    have r00 : w * w + x * x - y * y - z * z = cy * c := by linarith
    have r10 : 2 * (x * y + w * z) = sy * c := by linarith
    have r20 : 2 * (x * z - w * y) = -s := by rw [hsdef]; ring
    have r21 : 2 * (w * x + y * z) = c * sp := by linarith
    have r22 : 1 - 2 * (x * x + y * y) = c * cp := by linarith
    rw [hd, hp]
    ext i j
    fin_cases i <;> fin_cases j
    · exact r00
    · exact r01
    · exact r02
    · exact r10
    · exact r11
    · exact r12
    · exact r20
    · exact r21
    · exact r22
  · exact ⟨Real.neg_pi_div_two_lt_arcsin.mpr hs1.1, Real.arcsin_lt_pi_div_two.mpr hs1.2⟩
  · exact ⟨Complex.neg_pi_lt_arg _, Complex.arg_le_pi _⟩
  · exact ⟨Complex.neg_pi_lt_arg _, Complex.arg_le_pi _⟩

/-- C64: in gimbal lock roll and yaw are both reported as 0: all attitudes with the nose straight up
get the same three angles, and so do those with the nose straight down. -/
theorem C64_gimbal (ha : QuatIs a q) (hq : Quaternion.normSq q = 1) {s : ℝ} (hs2 : s = 1 ∨ s = -1)
    (hg : 2 * (q.re * q.imJ - q.imK * q.imI) = s) :
    Quat.convertToEuler a = .ok (.fin 0, .fin (s * (Real.pi / 2)), .fin 0) := by
  have hs := unit_sum hq
  have hsq : s ^ 2 = 1 := by rcases hs2 with h | h <;> rw [h] <;> norm_num
  have e21 : (2 * (q.re * q.imI + q.imJ * q.imK)) ^ 2 + (1 - 2 * (q.imI * q.imI + q.imJ * q.imJ)) ^ 2
      = 0 := by
    rw [← hg] at hsq
    linear_combination (-1) * hsq + (4 * (q.imI * q.imI + q.imJ * q.imJ)) * hs
  have e10 : (2 * (q.re * q.imK + q.imI * q.imJ)) ^ 2 + (1 - 2 * (q.imJ * q.imJ + q.imK * q.imK)) ^ 2
      = 0 := by
    rw [← hg] at hsq
    linear_combination (-1) * hsq + (4 * (q.imJ * q.imJ + q.imK * q.imK)) * hs
  have z1 : 2 * (q.re * q.imI + q.imJ * q.imK) = 0 := by nlinarith [sq_nonneg (2 * (q.re * q.imI + q.imJ * q.imK)), sq_nonneg (1 - 2 * (q.imI * q.imI + q.imJ * q.imJ))]
  have z2 : 1 - 2 * (q.imI * q.imI + q.imJ * q.imJ) = 0 := by nlinarith [sq_nonneg (2 * (q.re * q.imI + q.imJ * q.imK)), sq_nonneg (1 - 2 * (q.imI * q.imI + q.imJ * q.imJ))]
  have z3 : 2 * (q.re * q.imK + q.imI * q.imJ) = 0 := by nlinarith [sq_nonneg (2 * (q.re * q.imK + q.imI * q.imJ)), sq_nonneg (1 - 2 * (q.imJ * q.imJ + q.imK * q.imK))]
  have z4 : 1 - 2 * (q.imJ * q.imJ + q.imK * q.imK) = 0 := by nlinarith [sq_nonneg (2 * (q.re * q.imK + q.imI * q.imJ)), sq_nonneg (1 - 2 * (q.imJ * q.imJ + q.imK * q.imK))]
  have l1 : (lit 1 : XR) = .fin 1 := Ext.lit_one
  have l2 : (lit 2 : XR) = .fin 2 := lit_two
  have harg : (Elementary.atan2 (0 : ℝ) 0) = 0 := Complex.arg_zero
  unfold Quat.convertToEuler
  simp only [Quat.getQw_eq ha, Quat.getQx_eq ha, Quat.getQy_eq ha, Quat.getQz_eq ha, Res.ok_bind,
    l1, l2, Ext.mul_fin, Ext.add_fin, Ext.sub_fin, Ext.atan2_fin, z1, z2, z3, z4, harg, hg]
  rw [Ext.asin_fin (by rcases hs2 with h | h <;> rw [h] <;> norm_num)]
  have : (Elementary.asin s : ℝ) = s * (Real.pi / 2) := by
    rcases hs2 with h | h <;> rw [h]
    · rw [one_mul]; exact Real.arcsin_one
    · rw [neg_one_mul]; exact Real.arcsin_neg_one
  rw [this]

/-- C64: for a quaternion that is not a unit the pitch can be NaN, with success reported. -/
theorem C64_nan (ha : QuatIs a q) (hg : 1 < |2 * (q.re * q.imJ - q.imK * q.imI)|) :
    ∃ phi psi, Quat.convertToEuler a = .ok (phi, .nan, psi) := by
  have l2 : (lit 2 : XR) = .fin 2 := lit_two
  unfold Quat.convertToEuler
  simp only [Quat.getQw_eq ha, Quat.getQx_eq ha, Quat.getQy_eq ha, Quat.getQz_eq ha, Res.ok_bind,
    l2, Ext.mul_fin, Ext.sub_fin]
  have : Scalar.asin (.fin (2 * (q.re * q.imJ - q.imK * q.imI)) : XR) = .nan := by
    show Ext.onUnit _ (.fin _) = _
    unfold Ext.onUnit
    dsimp only
    rw [if_neg]
    rintro ⟨h1, h2⟩
    exact absurd (abs_le.mpr ⟨h1, h2⟩) (not_le.mpr hg)
  rw [this]
  exact ⟨_, _, rfl⟩

end

/-- A case of `C64_euler`. -/
example : Quaternion.normSq (mkQ (2 / 5) (2 / 5) (1 / 5) (4 / 5) : Quaternion ℝ) = 1 ∧
    (2 * ((2 / 5) * (1 / 5) - (4 / 5) * (2 / 5)) : ℝ) ^ 2 ≠ 1 := by
  rw [normSq_mkQ]; norm_num

/-- Two cases of `C64_gimbal` with different attitudes and the same angles. -/
example : Quaternion.normSq (mkQ (1 / 2) (-1 / 2) (1 / 2) (1 / 2) : Quaternion ℝ) = 1 ∧
    (2 * ((1 / 2) * (1 / 2) - (1 / 2) * (-1 / 2)) : ℝ) = 1 ∧
    Quaternion.normSq (mkQ (1 / 2) (1 / 2) (1 / 2) (-1 / 2) : Quaternion ℝ) = 1 ∧
    (2 * ((1 / 2) * (1 / 2) - (-1 / 2) * (1 / 2)) : ℝ) = 1 := by
  rw [normSq_mkQ, normSq_mkQ]; norm_num

/-- A case of `C64_nan`: 1 + j. -/
example : 1 < |(2 * (1 * 1 - 0 * 0) : ℝ)| := by norm_num

end Verif
