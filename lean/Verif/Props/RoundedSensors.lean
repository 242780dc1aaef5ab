import Verif.Props.Rounding
import Verif.Props.Gyrometer
import Verif.Props.Accelerometer
import Verif.Props.Magnetometer

/-
The calibrated readings of the sensors in binary32 (C81).
-/

set_option linter.unusedSectionVars false

namespace Verif
open Scalar Finset

variable {F : Type} [Scalar F] [R : Rounded F]

/-- `p (x - b)` for the three axes, with an error in the subtraction. -/
theorem calib_term {p d D C : ℝ} (hd : Near d D) (hp : |p| ≤ C) :
    |p * d - p * D| ≤ |p * D| / 16777216 + C * rη := by
  have h := hd.bound
  rw [← mul_sub, abs_mul, abs_mul]
  have h0 := abs_nonneg p
  have hη := rη_pos
  calc |p| * |d - D| ≤ |p| * (|D| / 16777216 + rη) := by gcongr
    _ = |p| * |D| / 16777216 + |p| * rη := by ring
    _ ≤ _ := by gcongr

/-- One axis of the calibration: no overflow, and a small relative error. -/
theorem calib_acc {p q r a b c x y z : F} {B C : ℝ}
    (hp : Finite p) (hq : Finite q) (hr : Finite r) (ha : Finite a) (hb : Finite b) (hc : Finite c)
    (hx : Finite x) (hy : Finite y) (hz : Finite z)
    (hpC : |⟪p⟫| ≤ C) (hqC : |⟪q⟫| ≤ C) (hrC : |⟪r⟫| ≤ C)
    (hxB : |⟪x⟫ - ⟪a⟫| ≤ B) (hyB : |⟪y⟫ - ⟪b⟫| ≤ B) (hzB : |⟪z⟫ - ⟪c⟫| ≤ B)
    (hB : B ≤ 2 ^ 126) (hC : C ≤ 2 ^ 98) (hCB : C * B ≤ 2 ^ 122) :
    (Finite (x -ᶠ a) ∧ Finite (y -ᶠ b) ∧ Finite (z -ᶠ c)) ∧
    (Finite (lit 0 +ᶠ p *ᶠ (x -ᶠ a)) ∧ Finite (lit 0 +ᶠ p *ᶠ (x -ᶠ a) +ᶠ q *ᶠ (y -ᶠ b)) ∧
      Finite (lit 0 +ᶠ p *ᶠ (x -ᶠ a) +ᶠ q *ᶠ (y -ᶠ b) +ᶠ r *ᶠ (z -ᶠ c))) ∧
    |⟪lit 0 +ᶠ p *ᶠ (x -ᶠ a) +ᶠ q *ᶠ (y -ᶠ b) +ᶠ r *ᶠ (z -ᶠ c)⟫ -
        (⟪p⟫ * (⟪x⟫ - ⟪a⟫) + ⟪q⟫ * (⟪y⟫ - ⟪b⟫) + ⟪r⟫ * (⟪z⟫ - ⟪c⟫))| ≤
      11 / 2 ^ 24 * (|⟪p⟫ * (⟪x⟫ - ⟪a⟫)| + |⟪q⟫ * (⟪y⟫ - ⟪b⟫)| + |⟪r⟫ * (⟪z⟫ - ⟪c⟫)|) + (9 + 4 * C) / 2 ^ 150 := by
  have hC0 : 0 ≤ C := (abs_nonneg _).trans hpC
  have hB0 : 0 ≤ B := (abs_nonneg _).trans hxB
  have fin : ∀ {u v : F}, Finite u → Finite v → |⟪u⟫ - ⟪v⟫| ≤ B → Finite (u -ᶠ v) := by
    intro u v hu hv h
    refine R.sub_finite hu hv (h.trans (hB.trans ?_))
    norm_num
  have fx := fin hx ha hxB
  have fy := fin hy hb hyB
  have fz := fin hz hc hzB
  have ex := calib_term (R.sub_near hx ha fx) hpC
  have ey := calib_term (R.sub_near hy hb fy) hqC
  have ez := calib_term (R.sub_near hz hc fz) hrC
  have big : ∀ {u D : ℝ}, |u| ≤ C → |D| ≤ B → |u * D| ≤ 2 ^ 122 := by
    intro u D hu hD
    rw [abs_mul]
    exact (mul_le_mul hu hD (abs_nonneg _) hC0).trans hCB
  have bx := big hpC hxB
  have by_ := big hqC hyB
  have bz := big hrC hzB
  have hCη : C * rη ≤ 1 := by
    unfold rη
    calc C * (1 / 2 ^ 150) ≤ 2 ^ 98 * (1 / 2 ^ 150) := by gcongr
      _ ≤ 1 := by norm_num
  have hCη0 : 0 ≤ C * rη := by have := rη_pos; positivity
  have tri : ∀ {u v : ℝ}, |u| ≤ |v| + |u - v| := by
    intro u v
    have := abs_sub_abs_le_abs_sub u v
    linarith
  have sx := tri (u := ⟪p⟫ * ⟪x -ᶠ a⟫) (v := ⟪p⟫ * (⟪x⟫ - ⟪a⟫))
  have sy := tri (u := ⟪q⟫ * ⟪y -ᶠ b⟫) (v := ⟪q⟫ * (⟪y⟫ - ⟪b⟫))
  have sz := tri (u := ⟪r⟫ * ⟪z -ᶠ c⟫) (v := ⟪r⟫ * (⟪z⟫ - ⟪c⟫))
  have key := dot_acc (n := 3) (f := seq3 p q r) (g := seq3 (x -ᶠ a) (y -ᶠ b) (z -ᶠ c)) (by omega)
    (forall_lt_three.mpr ⟨hp, hq, hr⟩) (forall_lt_three.mpr ⟨fx, fy, fz⟩) (by
      simp only [Finset.sum_range_succ, Finset.sum_range_zero, seq3, zero_add]
      have e : (2 : ℝ) ^ 126 = 16 * 2 ^ 122 := by norm_num
      have e' : (1 : ℝ) ≤ 2 ^ 122 := by norm_num
      rw [e]
      generalize (2 : ℝ) ^ 122 = M at *
      linarith)
  have k1 := (key 1 (by omega)).1
  have k2 := (key 2 (by omega)).1
  obtain ⟨k3, k4⟩ := key 3 (by omega)
  refine ⟨⟨fx, fy, fz⟩, ⟨k1, k2, k3⟩, ?_⟩
  simp only [Finset.sum_range_succ, Finset.sum_range_zero, seq3, zero_add] at k4
  change |⟪lit 0 +ᶠ p *ᶠ (x -ᶠ a) +ᶠ q *ᶠ (y -ᶠ b) +ᶠ r *ᶠ (z -ᶠ c)⟫ - _| ≤ _ at k4
  have hsum := abs_add_le (⟪lit 0 +ᶠ p *ᶠ (x -ᶠ a) +ᶠ q *ᶠ (y -ᶠ b) +ᶠ r *ᶠ (z -ᶠ c)⟫ -
      (⟪p⟫ * ⟪x -ᶠ a⟫ + ⟪q⟫ * ⟪y -ᶠ b⟫ + ⟪r⟫ * ⟪z -ᶠ c⟫))
    ((⟪p⟫ * ⟪x -ᶠ a⟫ - ⟪p⟫ * (⟪x⟫ - ⟪a⟫)) + (⟪q⟫ * ⟪y -ᶠ b⟫ - ⟪q⟫ * (⟪y⟫ - ⟪b⟫)) +
      (⟪r⟫ * ⟪z -ᶠ c⟫ - ⟪r⟫ * (⟪z⟫ - ⟪c⟫)))
  have hsum2 := abs_add_three (⟪p⟫ * ⟪x -ᶠ a⟫ - ⟪p⟫ * (⟪x⟫ - ⟪a⟫)) (⟪q⟫ * ⟪y -ᶠ b⟫ - ⟪q⟫ * (⟪y⟫ - ⟪b⟫))
    (⟪r⟫ * ⟪z -ᶠ c⟫ - ⟪r⟫ * (⟪z⟫ - ⟪c⟫))
  rw [show ⟪lit 0 +ᶠ p *ᶠ (x -ᶠ a) +ᶠ q *ᶠ (y -ᶠ b) +ᶠ r *ᶠ (z -ᶠ c)⟫ -
        (⟪p⟫ * (⟪x⟫ - ⟪a⟫) + ⟪q⟫ * (⟪y⟫ - ⟪b⟫) + ⟪r⟫ * (⟪z⟫ - ⟪c⟫)) =
      (⟪lit 0 +ᶠ p *ᶠ (x -ᶠ a) +ᶠ q *ᶠ (y -ᶠ b) +ᶠ r *ᶠ (z -ᶠ c)⟫ -
      (⟪p⟫ * ⟪x -ᶠ a⟫ + ⟪q⟫ * ⟪y -ᶠ b⟫ + ⟪r⟫ * ⟪z -ᶠ c⟫)) +
    ((⟪p⟫ * ⟪x -ᶠ a⟫ - ⟪p⟫ * (⟪x⟫ - ⟪a⟫)) + (⟪q⟫ * ⟪y -ᶠ b⟫ - ⟪q⟫ * (⟪y⟫ - ⟪b⟫)) +
      (⟪r⟫ * ⟪z -ᶠ c⟫ - ⟪r⟫ * (⟪z⟫ - ⟪c⟫))) by ring]
  rw [show (9 + 4 * C) / 2 ^ 150 = 9 * rη + 4 * (C * rη) by unfold rη; ring]
  have hu : ru = 1 / 16777216 := by unfold ru; norm_num
  rw [hu] at k4
  push_cast at k4
  have c0 := abs_nonneg (⟪p⟫ * (⟪x⟫ - ⟪a⟫))
  have c1 := abs_nonneg (⟪q⟫ * (⟪y⟫ - ⟪b⟫))
  have c2 := abs_nonneg (⟪r⟫ * (⟪z⟫ - ⟪c⟫))
  norm_num only
  clear bx by_ bz hB hC hCB
  linarith

/-- C81: the gyrometer in binary32: for finite samples within `B` of the biases and coefficients up to `C`,
inside a wide range, the update succeeds, and each corrected component is the exact one up to
`11 / 2²⁴` of the sum of the absolute terms, plus a term for underflow. -/
theorem C81_gyr {g : Gyrometer F} {c : GyrometerConfig F} {x y z : F} {B C : ℝ} (hg : Gyrometer.Reachable g)
    (hc : Gyrometer.getConfig g = .ok c) (hx : Finite x) (hy : Finite y) (hz : Finite z)
    (hxB : |⟪x⟫ - ⟪c.xBias⟫| ≤ B) (hyB : |⟪y⟫ - ⟪c.yBias⟫| ≤ B) (hzB : |⟪z⟫ - ⟪c.zBias⟫| ≤ B)
    (hcC : ∀ k ∈ [c.xScale, c.yScale, c.zScale, c.xy, c.xz, c.yx, c.yz, c.zx, c.zy], |⟪k⟫| ≤ C)
    (hB : B ≤ 2 ^ 126) (hC : C ≤ 2 ^ 98) (hCB : C * B ≤ 2 ^ 122) :
    ∃ g' rx ry rz, Gyrometer.update x y z g = (.ok (), g') ∧ Gyrometer.getX g' = .ok rx ∧ Gyrometer.getY g' = .ok ry ∧
      Gyrometer.getZ g' = .ok rz ∧
      |⟪rx⟫ - (⟪c.xScale⟫ * (⟪x⟫ - ⟪c.xBias⟫) + ⟪c.yx⟫ * (⟪y⟫ - ⟪c.yBias⟫) + ⟪c.zx⟫ * (⟪z⟫ - ⟪c.zBias⟫))| ≤
        11 / 2 ^ 24 * (|⟪c.xScale⟫ * (⟪x⟫ - ⟪c.xBias⟫)| + |⟪c.yx⟫ * (⟪y⟫ - ⟪c.yBias⟫)| + |⟪c.zx⟫ * (⟪z⟫ - ⟪c.zBias⟫)|) +
          (9 + 4 * C) / 2 ^ 150 ∧
      |⟪ry⟫ - (⟪c.xy⟫ * (⟪x⟫ - ⟪c.xBias⟫) + ⟪c.yScale⟫ * (⟪y⟫ - ⟪c.yBias⟫) + ⟪c.zy⟫ * (⟪z⟫ - ⟪c.zBias⟫))| ≤
        11 / 2 ^ 24 * (|⟪c.xy⟫ * (⟪x⟫ - ⟪c.xBias⟫)| + |⟪c.yScale⟫ * (⟪y⟫ - ⟪c.yBias⟫)| + |⟪c.zy⟫ * (⟪z⟫ - ⟪c.zBias⟫)|) +
          (9 + 4 * C) / 2 ^ 150 ∧
      |⟪rz⟫ - (⟪c.xz⟫ * (⟪x⟫ - ⟪c.xBias⟫) + ⟪c.yz⟫ * (⟪y⟫ - ⟪c.yBias⟫) + ⟪c.zScale⟫ * (⟪z⟫ - ⟪c.zBias⟫))| ≤
        11 / 2 ^ 24 * (|⟪c.xz⟫ * (⟪x⟫ - ⟪c.xBias⟫)| + |⟪c.yz⟫ * (⟪y⟫ - ⟪c.yBias⟫)| + |⟪c.zScale⟫ * (⟪z⟫ - ⟪c.zBias⟫)|) +
          (9 + 4 * C) / 2 ^ 150 := by
  obtain ⟨hi, -, -, -, hp, -⟩ := Gyrometer.config_of hg hc
  have hp := Gyrometer.params_finite.mpr hp
  simp only [GyrometerConfig.params, List.forall_mem_cons, List.not_mem_nil, false_imp_iff, implies_true, and_true] at hp hcC
  obtain ⟨p1, p2, p3, p4, p5, p6, p7, p8, p9, p10, p11, p12⟩ := hp
  obtain ⟨q1, q2, q3, q4, q5, q6, q7, q8, q9⟩ := hcC
  have ax := calib_acc (p := c.xScale) (q := c.yx) (r := c.zx) (by assumption) (by assumption) (by assumption) p10 p11 p12 hx hy hz
    (by assumption) (by assumption) (by assumption) hxB hyB hzB hB hC hCB
  have ay := calib_acc (p := c.xy) (q := c.yScale) (r := c.zy) (by assumption) (by assumption) (by assumption) p10 p11 p12 hx hy hz
    (by assumption) (by assumption) (by assumption) hxB hyB hzB hB hC hCB
  have az := calib_acc (p := c.xz) (q := c.yz) (r := c.zScale) (by assumption) (by assumption) (by assumption) p10 p11 p12 hx hy hz
    (by assumption) (by assumption) (by assumption) hxB hyB hzB hB hC hCB
  have hu := (C43_gyr_iff hg hc (x := x) (y := y) (z := z)).mpr
    ⟨⟨hx, hy, hz⟩, ax.1, ax.2.1, ay.2.1, az.2.1⟩
  rcases e : Gyrometer.update x y z g with ⟨r, g'⟩
  rw [e] at hu
  obtain rfl := hu
  obtain ⟨-, h1, h2, h3, -⟩ := C43_gyr_formula hg hc e
  exact ⟨g', _, _, _, rfl, h1, h2, h3, ax.2.2, ay.2.2, az.2.2⟩

/-- C81: the accelerometer in binary32: for finite samples within `B` of the biases and coefficients up to `C`,
inside a wide range, the update succeeds, and each corrected component is the exact one up to
`11 / 2²⁴` of the sum of the absolute terms, plus a term for underflow. -/
theorem C81_acc {g : Accelerometer F} {c : AccelerometerConfig F} {x y z : F} {B C : ℝ} (hg : Accelerometer.Reachable g)
    (hc : Accelerometer.getConfig g = .ok c) (hx : Finite x) (hy : Finite y) (hz : Finite z)
    (hxB : |⟪x⟫ - ⟪c.xBias⟫| ≤ B) (hyB : |⟪y⟫ - ⟪c.yBias⟫| ≤ B) (hzB : |⟪z⟫ - ⟪c.zBias⟫| ≤ B)
    (hcC : ∀ k ∈ [c.xScale, c.yScale, c.zScale, c.xy, c.xz, c.yx, c.yz, c.zx, c.zy], |⟪k⟫| ≤ C)
    (hB : B ≤ 2 ^ 126) (hC : C ≤ 2 ^ 98) (hCB : C * B ≤ 2 ^ 122) :
    ∃ g' rx ry rz, Accelerometer.update x y z g = (.ok (), g') ∧ Accelerometer.getX g' = .ok rx ∧ Accelerometer.getY g' = .ok ry ∧
      Accelerometer.getZ g' = .ok rz ∧
      |⟪rx⟫ - (⟪c.xScale⟫ * (⟪x⟫ - ⟪c.xBias⟫) + ⟪c.yx⟫ * (⟪y⟫ - ⟪c.yBias⟫) + ⟪c.zx⟫ * (⟪z⟫ - ⟪c.zBias⟫))| ≤
        11 / 2 ^ 24 * (|⟪c.xScale⟫ * (⟪x⟫ - ⟪c.xBias⟫)| + |⟪c.yx⟫ * (⟪y⟫ - ⟪c.yBias⟫)| + |⟪c.zx⟫ * (⟪z⟫ - ⟪c.zBias⟫)|) +
          (9 + 4 * C) / 2 ^ 150 ∧
      |⟪ry⟫ - (⟪c.xy⟫ * (⟪x⟫ - ⟪c.xBias⟫) + ⟪c.yScale⟫ * (⟪y⟫ - ⟪c.yBias⟫) + ⟪c.zy⟫ * (⟪z⟫ - ⟪c.zBias⟫))| ≤
        11 / 2 ^ 24 * (|⟪c.xy⟫ * (⟪x⟫ - ⟪c.xBias⟫)| + |⟪c.yScale⟫ * (⟪y⟫ - ⟪c.yBias⟫)| + |⟪c.zy⟫ * (⟪z⟫ - ⟪c.zBias⟫)|) +
          (9 + 4 * C) / 2 ^ 150 ∧
      |⟪rz⟫ - (⟪c.xz⟫ * (⟪x⟫ - ⟪c.xBias⟫) + ⟪c.yz⟫ * (⟪y⟫ - ⟪c.yBias⟫) + ⟪c.zScale⟫ * (⟪z⟫ - ⟪c.zBias⟫))| ≤
        11 / 2 ^ 24 * (|⟪c.xz⟫ * (⟪x⟫ - ⟪c.xBias⟫)| + |⟪c.yz⟫ * (⟪y⟫ - ⟪c.yBias⟫)| + |⟪c.zScale⟫ * (⟪z⟫ - ⟪c.zBias⟫)|) +
          (9 + 4 * C) / 2 ^ 150 := by
  obtain ⟨hi, -, -, -, hp, -⟩ := Accelerometer.config_of hg hc
  have hp := Accelerometer.params_finite.mpr hp
  simp only [AccelerometerConfig.params, List.forall_mem_cons, List.not_mem_nil, false_imp_iff, implies_true, and_true] at hp hcC
  obtain ⟨p1, p2, p3, p4, p5, p6, p7, p8, p9, p10, p11, p12⟩ := hp
  obtain ⟨q1, q2, q3, q4, q5, q6, q7, q8, q9⟩ := hcC
  have ax := calib_acc (p := c.xScale) (q := c.yx) (r := c.zx) (by assumption) (by assumption) (by assumption) p10 p11 p12 hx hy hz
    (by assumption) (by assumption) (by assumption) hxB hyB hzB hB hC hCB
  have ay := calib_acc (p := c.xy) (q := c.yScale) (r := c.zy) (by assumption) (by assumption) (by assumption) p10 p11 p12 hx hy hz
    (by assumption) (by assumption) (by assumption) hxB hyB hzB hB hC hCB
  have az := calib_acc (p := c.xz) (q := c.yz) (r := c.zScale) (by assumption) (by assumption) (by assumption) p10 p11 p12 hx hy hz
    (by assumption) (by assumption) (by assumption) hxB hyB hzB hB hC hCB
  have hu := (C43_acc_iff hg hc (x := x) (y := y) (z := z)).mpr
    ⟨⟨hx, hy, hz⟩, ax.1, ax.2.1, ay.2.1, az.2.1⟩
  rcases e : Accelerometer.update x y z g with ⟨r, g'⟩
  rw [e] at hu
  obtain rfl := hu
  obtain ⟨-, h1, h2, h3, -⟩ := C43_acc_formula hg hc e
  exact ⟨g', _, _, _, rfl, h1, h2, h3, ax.2.2, ay.2.2, az.2.2⟩

/-- C81: the magnetometer in binary32: for finite samples within `B` of the biases and coefficients up to `C`,
inside a wide range, the update succeeds, and each corrected component is the exact one up to
`11 / 2²⁴` of the sum of the absolute terms, plus a term for underflow. -/
theorem C81_mag {g : Magnetometer F} {c : MagnetometerConfig F} {x y z : F} {B C : ℝ} (hg : Magnetometer.Reachable g)
    (hc : Magnetometer.getConfig g = .ok c) (hx : Finite x) (hy : Finite y) (hz : Finite z)
    (hxB : |⟪x⟫ - ⟪c.xBias⟫| ≤ B) (hyB : |⟪y⟫ - ⟪c.yBias⟫| ≤ B) (hzB : |⟪z⟫ - ⟪c.zBias⟫| ≤ B)
    (hcC : ∀ k ∈ [c.xScale, c.yScale, c.zScale, c.xy, c.xz, c.yx, c.yz, c.zx, c.zy], |⟪k⟫| ≤ C)
    (hB : B ≤ 2 ^ 126) (hC : C ≤ 2 ^ 98) (hCB : C * B ≤ 2 ^ 122) :
    ∃ g' rx ry rz, Magnetometer.update x y z g = (.ok (), g') ∧ Magnetometer.getX g' = .ok rx ∧ Magnetometer.getY g' = .ok ry ∧
      Magnetometer.getZ g' = .ok rz ∧
      |⟪rx⟫ - (⟪c.xScale⟫ * (⟪x⟫ - ⟪c.xBias⟫) + ⟪c.xy⟫ * (⟪y⟫ - ⟪c.yBias⟫) + ⟪c.yx⟫ * (⟪z⟫ - ⟪c.zBias⟫))| ≤
        11 / 2 ^ 24 * (|⟪c.xScale⟫ * (⟪x⟫ - ⟪c.xBias⟫)| + |⟪c.xy⟫ * (⟪y⟫ - ⟪c.yBias⟫)| + |⟪c.yx⟫ * (⟪z⟫ - ⟪c.zBias⟫)|) +
          (9 + 4 * C) / 2 ^ 150 ∧
      |⟪ry⟫ - (⟪c.xz⟫ * (⟪x⟫ - ⟪c.xBias⟫) + ⟪c.yScale⟫ * (⟪y⟫ - ⟪c.yBias⟫) + ⟪c.zx⟫ * (⟪z⟫ - ⟪c.zBias⟫))| ≤
        11 / 2 ^ 24 * (|⟪c.xz⟫ * (⟪x⟫ - ⟪c.xBias⟫)| + |⟪c.yScale⟫ * (⟪y⟫ - ⟪c.yBias⟫)| + |⟪c.zx⟫ * (⟪z⟫ - ⟪c.zBias⟫)|) +
          (9 + 4 * C) / 2 ^ 150 ∧
      |⟪rz⟫ - (⟪c.yz⟫ * (⟪x⟫ - ⟪c.xBias⟫) + ⟪c.zy⟫ * (⟪y⟫ - ⟪c.yBias⟫) + ⟪c.zScale⟫ * (⟪z⟫ - ⟪c.zBias⟫))| ≤
        11 / 2 ^ 24 * (|⟪c.yz⟫ * (⟪x⟫ - ⟪c.xBias⟫)| + |⟪c.zy⟫ * (⟪y⟫ - ⟪c.yBias⟫)| + |⟪c.zScale⟫ * (⟪z⟫ - ⟪c.zBias⟫)|) +
          (9 + 4 * C) / 2 ^ 150 := by
  obtain ⟨hi, -, -, -, hp, -⟩ := Magnetometer.config_of hg hc
  have hp := Magnetometer.params_finite.mpr hp
  simp only [MagnetometerConfig.params, List.forall_mem_cons, List.not_mem_nil, false_imp_iff, implies_true, and_true] at hp hcC
  obtain ⟨p1, p2, p3, p4, p5, p6, p7, p8, p9, p10, p11, p12⟩ := hp
  obtain ⟨q1, q2, q3, q4, q5, q6, q7, q8, q9⟩ := hcC
  have ax := calib_acc (p := c.xScale) (q := c.xy) (r := c.yx) (by assumption) (by assumption) (by assumption) p10 p11 p12 hx hy hz
    (by assumption) (by assumption) (by assumption) hxB hyB hzB hB hC hCB
  have ay := calib_acc (p := c.xz) (q := c.yScale) (r := c.zx) (by assumption) (by assumption) (by assumption) p10 p11 p12 hx hy hz
    (by assumption) (by assumption) (by assumption) hxB hyB hzB hB hC hCB
  have az := calib_acc (p := c.yz) (q := c.zy) (r := c.zScale) (by assumption) (by assumption) (by assumption) p10 p11 p12 hx hy hz
    (by assumption) (by assumption) (by assumption) hxB hyB hzB hB hC hCB
  have hu := (C43_mag_iff hg hc (x := x) (y := y) (z := z)).mpr
    ⟨⟨hx, hy, hz⟩, ax.1, ax.2.1, ay.2.1, az.2.1⟩
  rcases e : Magnetometer.update x y z g with ⟨r, g'⟩
  rw [e] at hu
  obtain rfl := hu
  obtain ⟨-, h1, h2, h3, -⟩ := C43_mag_formula hg hc e
  exact ⟨g', _, _, _, rfl, h1, h2, h3, ax.2.2, ay.2.2, az.2.2⟩

/-! ### Concrete cases in binary32 -/

/-- The value of a literal that is representable. -/
theorem val_lit {k : ℚ} (hk : F32.fl (.fin k) = ⟨.fin k⟩) : ⟪(lit k : F32)⟫ = (k : ℝ) := by
  show F32.toReal (F32.fl (.fin k)) = _
  rw [hk]
  rfl

/-- A gyrometer with twelve different parameters. -/
def Gyrometer.sampleF : GyrometerConfig F32 :=
  ⟨lit 2, lit 3, lit 5, lit 7, lit 11, lit 13, lit 17, lit 19, lit 23, lit 1, lit (-1), lit 4⟩

/-- The hypotheses of `C81_gyr` hold for it and the sample (2, 1, 0.1), whose last component is not representable. -/
example : ∃ g, Gyrometer.Reachable g ∧ Gyrometer.getConfig g = .ok Gyrometer.sampleF ∧
    ∃ g' rx ry rz, Gyrometer.update (lit 2) (lit 1) (lit (1 / 10)) g = (.ok (), g') ∧ Gyrometer.getX g' = .ok rx ∧
      Gyrometer.getY g' = .ok ry ∧ Gyrometer.getZ g' = .ok rz := by
  obtain ⟨g0, e, h0, hg0, -⟩ := Gyrometer.new_ok (F := F32)
  have hr0 : Gyrometer.Reachable g0 := ⟨g0, e, .refl g0⟩
  have hf : ∀ v ∈ Gyrometer.sampleF.params, Finite v := by decide +kernel
  have e1 := Gyrometer.init_ok hg0 h0 (Gyrometer.params_finite.mp hf)
  have hr : Gyrometer.Reachable (Gyrometer.init Gyrometer.sampleF g0).2 := ⟨g0, e, .step (.init Gyrometer.sampleF) (.refl g0)⟩
  have hc : Gyrometer.getConfig (Gyrometer.init Gyrometer.sampleF g0).2 = .ok Gyrometer.sampleF :=
    C42_gyr_init (g' := (Gyrometer.init Gyrometer.sampleF g0).2) hr0 (by rw [e1])
  refine ⟨_, hr, hc, ?_⟩
  have v : ∀ k : Fin 25, ⟪(lit ((k : ℕ) : ℚ) : F32)⟫ = ((k : ℕ) : ℝ) := by
    intro k
    rw [val_lit (by revert k; decide +kernel)]
    norm_num
  have v1 : ⟪(lit (-1) : F32)⟫ = -1 := by
    rw [val_lit (by decide +kernel)]
    norm_num
  have vt : |⟪(lit (1 / 10) : F32)⟫| ≤ 1 := by
    rw [show (lit (1 / 10) : F32) = ⟨.fin (13421773 / 134217728)⟩ by decide +kernel]
    show |((13421773 / 134217728 : ℚ) : ℝ)| ≤ 1
    norm_num [abs_le]
  obtain ⟨g', rx, ry, rz, h1, h2, h3, h4, -⟩ := C81_gyr (B := 5) (C := 23) hr hc (x := lit 2) (y := lit 1)
    (z := lit (1 / 10)) (by decide +kernel) (by decide +kernel) (by decide +kernel)
    (by
      have a := v 2
      have b := v 1
      simp [Gyrometer.sampleF] at a b ⊢
      rw [a, b]
      norm_num)
    (by
      have b := v 1
      simp [Gyrometer.sampleF] at b ⊢
      rw [v1, b]
      norm_num)
    (by
      have b := v 4
      simp [Gyrometer.sampleF] at b ⊢
      rw [b]
      rw [abs_le] at vt ⊢
      norm_num at vt
      constructor <;> linarith)
    (by
      simp only [Gyrometer.sampleF, List.forall_mem_cons, List.not_mem_nil, false_imp_iff, implies_true, and_true]
      have q2 := v 2
      have q3 := v 3
      have q5 := v 5
      have q7 := v 7
      have q11 := v 11
      have q13 := v 13
      have q17 := v 17
      have q19 := v 19
      have q23 := v 23
      simp at q2 q3 q5 q7 q11 q13 q17 q19 q23
      rw [q2, q3, q5, q7, q11, q13, q17, q19, q23]
      norm_num)
    (by norm_num) (by norm_num) (by norm_num)
  exact ⟨g', rx, ry, rz, h1, h2, h3, h4⟩

/-- A accelerometer with twelve different parameters. -/
def Accelerometer.sampleF : AccelerometerConfig F32 :=
  ⟨lit 2, lit 3, lit 5, lit 7, lit 11, lit 13, lit 17, lit 19, lit 23, lit 1, lit (-1), lit 4⟩

/-- The hypotheses of `C81_acc` hold for it and the sample (2, 1, 0.1), whose last component is not representable. -/
example : ∃ g, Accelerometer.Reachable g ∧ Accelerometer.getConfig g = .ok Accelerometer.sampleF ∧
    ∃ g' rx ry rz, Accelerometer.update (lit 2) (lit 1) (lit (1 / 10)) g = (.ok (), g') ∧ Accelerometer.getX g' = .ok rx ∧
      Accelerometer.getY g' = .ok ry ∧ Accelerometer.getZ g' = .ok rz := by
  obtain ⟨g0, e, h0, hg0, -⟩ := Accelerometer.new_ok (F := F32)
  have hr0 : Accelerometer.Reachable g0 := ⟨g0, e, .refl g0⟩
  have hf : ∀ v ∈ Accelerometer.sampleF.params, Finite v := by decide +kernel
  have e1 := Accelerometer.init_ok hg0 h0 (Accelerometer.params_finite.mp hf)
  have hr : Accelerometer.Reachable (Accelerometer.init Accelerometer.sampleF g0).2 := ⟨g0, e, .step (.init Accelerometer.sampleF) (.refl g0)⟩
  have hc : Accelerometer.getConfig (Accelerometer.init Accelerometer.sampleF g0).2 = .ok Accelerometer.sampleF :=
    C42_acc_init (g' := (Accelerometer.init Accelerometer.sampleF g0).2) hr0 (by rw [e1])
  refine ⟨_, hr, hc, ?_⟩
  have v : ∀ k : Fin 25, ⟪(lit ((k : ℕ) : ℚ) : F32)⟫ = ((k : ℕ) : ℝ) := by
    intro k
    rw [val_lit (by revert k; decide +kernel)]
    norm_num
  have v1 : ⟪(lit (-1) : F32)⟫ = -1 := by
    rw [val_lit (by decide +kernel)]
    norm_num
  have vt : |⟪(lit (1 / 10) : F32)⟫| ≤ 1 := by
    rw [show (lit (1 / 10) : F32) = ⟨.fin (13421773 / 134217728)⟩ by decide +kernel]
    show |((13421773 / 134217728 : ℚ) : ℝ)| ≤ 1
    norm_num [abs_le]
  obtain ⟨g', rx, ry, rz, h1, h2, h3, h4, -⟩ := C81_acc (B := 5) (C := 23) hr hc (x := lit 2) (y := lit 1)
    (z := lit (1 / 10)) (by decide +kernel) (by decide +kernel) (by decide +kernel)
    (by
      have a := v 2
      have b := v 1
      simp [Accelerometer.sampleF] at a b ⊢
      rw [a, b]
      norm_num)
    (by
      have b := v 1
      simp [Accelerometer.sampleF] at b ⊢
      rw [v1, b]
      norm_num)
    (by
      have b := v 4
      simp [Accelerometer.sampleF] at b ⊢
      rw [b]
      rw [abs_le] at vt ⊢
      norm_num at vt
      constructor <;> linarith)
    (by
      simp only [Accelerometer.sampleF, List.forall_mem_cons, List.not_mem_nil, false_imp_iff, implies_true, and_true]
      have q2 := v 2
      have q3 := v 3
      have q5 := v 5
      have q7 := v 7
      have q11 := v 11
      have q13 := v 13
      have q17 := v 17
      have q19 := v 19
      have q23 := v 23
      simp at q2 q3 q5 q7 q11 q13 q17 q19 q23
      rw [q2, q3, q5, q7, q11, q13, q17, q19, q23]
      norm_num)
    (by norm_num) (by norm_num) (by norm_num)
  exact ⟨g', rx, ry, rz, h1, h2, h3, h4⟩

/-- A magnetometer with twelve different parameters. -/
def Magnetometer.sampleF : MagnetometerConfig F32 :=
  ⟨lit 2, lit 3, lit 5, lit 7, lit 11, lit 13, lit 17, lit 19, lit 23, lit 1, lit (-1), lit 4⟩

/-- The hypotheses of `C81_mag` hold for it and the sample (2, 1, 0.1), whose last component is not representable. -/
example : ∃ g, Magnetometer.Reachable g ∧ Magnetometer.getConfig g = .ok Magnetometer.sampleF ∧
    ∃ g' rx ry rz, Magnetometer.update (lit 2) (lit 1) (lit (1 / 10)) g = (.ok (), g') ∧ Magnetometer.getX g' = .ok rx ∧
      Magnetometer.getY g' = .ok ry ∧ Magnetometer.getZ g' = .ok rz := by
  obtain ⟨g0, e, h0, hg0, -⟩ := Magnetometer.new_ok (F := F32)
  have hr0 : Magnetometer.Reachable g0 := ⟨g0, e, .refl g0⟩
  have hf : ∀ v ∈ Magnetometer.sampleF.params, Finite v := by decide +kernel
  have e1 := Magnetometer.init_ok hg0 h0 (Magnetometer.params_finite.mp hf)
  have hr : Magnetometer.Reachable (Magnetometer.init Magnetometer.sampleF g0).2 := ⟨g0, e, .step (.init Magnetometer.sampleF) (.refl g0)⟩
  have hc : Magnetometer.getConfig (Magnetometer.init Magnetometer.sampleF g0).2 = .ok Magnetometer.sampleF :=
    C42_mag_init (g' := (Magnetometer.init Magnetometer.sampleF g0).2) hr0 (by rw [e1])
  refine ⟨_, hr, hc, ?_⟩
  have v : ∀ k : Fin 25, ⟪(lit ((k : ℕ) : ℚ) : F32)⟫ = ((k : ℕ) : ℝ) := by
    intro k
    rw [val_lit (by revert k; decide +kernel)]
    norm_num
  have v1 : ⟪(lit (-1) : F32)⟫ = -1 := by
    rw [val_lit (by decide +kernel)]
    norm_num
  have vt : |⟪(lit (1 / 10) : F32)⟫| ≤ 1 := by
    rw [show (lit (1 / 10) : F32) = ⟨.fin (13421773 / 134217728)⟩ by decide +kernel]
    show |((13421773 / 134217728 : ℚ) : ℝ)| ≤ 1
    norm_num [abs_le]
  obtain ⟨g', rx, ry, rz, h1, h2, h3, h4, -⟩ := C81_mag (B := 5) (C := 23) hr hc (x := lit 2) (y := lit 1)
    (z := lit (1 / 10)) (by decide +kernel) (by decide +kernel) (by decide +kernel)
    (by
      have a := v 2
      have b := v 1
      simp [Magnetometer.sampleF] at a b ⊢
      rw [a, b]
      norm_num)
    (by
      have b := v 1
      simp [Magnetometer.sampleF] at b ⊢
      rw [v1, b]
      norm_num)
    (by
      have b := v 4
      simp [Magnetometer.sampleF] at b ⊢
      rw [b]
      rw [abs_le] at vt ⊢
      norm_num at vt
      constructor <;> linarith)
    (by
      simp only [Magnetometer.sampleF, List.forall_mem_cons, List.not_mem_nil, false_imp_iff, implies_true, and_true]
      have q2 := v 2
      have q3 := v 3
      have q5 := v 5
      have q7 := v 7
      have q11 := v 11
      have q13 := v 13
      have q17 := v 17
      have q19 := v 19
      have q23 := v 23
      simp at q2 q3 q5 q7 q11 q13 q17 q19 q23
      rw [q2, q3, q5, q7, q11, q13, q17, q19, q23]
      norm_num)
    (by norm_num) (by norm_num) (by norm_num)
  exact ⟨g', rx, ry, rz, h1, h2, h3, h4⟩

end Verif
