import Verif.Props.RoundedExact
import Verif.Props.RoundedSensors

set_option linter.unusedSectionVars false
set_option linter.unusedSimpArgs false

/-
C140: the calibrated sensors (open_ahrs/src/gyrometer.rs:194-248, accelerometer.rs and magnetometer.rs alike) in
binary32 where the correction is free of rounding errors.
-/

namespace Verif
open Scalar

/-- A sum of a number and products with zero coefficients. -/
theorem corr_first {x y z : F32} (hx : F32.IsNumber x) (hy : Finite y) (hz : Finite z) :
    lit 0 +ᶠ lit 1 *ᶠ x = x ∧ lit 0 +ᶠ lit 1 *ᶠ x +ᶠ lit 0 *ᶠ y = x ∧ lit 0 +ᶠ lit 1 *ᶠ x +ᶠ lit 0 *ᶠ y +ᶠ lit 0 *ᶠ z = x := by
  simp only [one_mul32 hx, zero_mul32 hy, zero_mul32 hz, zero_add_left32 hx, add_zero_right32 hx, and_self]

theorem corr_second {x y z : F32} (hx : Finite x) (hy : F32.IsNumber y) (hz : Finite z) :
    lit 0 +ᶠ lit 0 *ᶠ x = lit 0 ∧ lit 0 +ᶠ lit 0 *ᶠ x +ᶠ lit 1 *ᶠ y = y ∧ lit 0 +ᶠ lit 0 *ᶠ x +ᶠ lit 1 *ᶠ y +ᶠ lit 0 *ᶠ z = y := by
  simp only [one_mul32 hy, zero_mul32 hx, zero_mul32 hz, zero_add_left32 hy, add_zero_right32 hy,
    add_zero_right32 zero_number32, and_self]

theorem corr_third {x y z : F32} (hx : Finite x) (hy : Finite y) (hz : F32.IsNumber z) :
    lit 0 +ᶠ lit 0 *ᶠ x = lit 0 ∧ lit 0 +ᶠ lit 0 *ᶠ x +ᶠ lit 0 *ᶠ y = lit 0 ∧
      lit 0 +ᶠ lit 0 *ᶠ x +ᶠ lit 0 *ᶠ y +ᶠ lit 1 *ᶠ z = z := by
  simp only [one_mul32 hz, zero_mul32 hx, zero_mul32 hy, zero_add_left32 hz, add_zero_right32 zero_number32, and_self]

theorem corr_null {a b c : F32} (ha : Finite a) (hb : Finite b) (hc : Finite c) :
    lit 0 +ᶠ a *ᶠ lit 0 = lit 0 ∧ lit 0 +ᶠ a *ᶠ lit 0 +ᶠ b *ᶠ lit 0 = lit 0 ∧
      lit 0 +ᶠ a *ᶠ lit 0 +ᶠ b *ᶠ lit 0 +ᶠ c *ᶠ lit 0 = (lit 0 : F32) := by
  simp only [mul_zero_right32 ha, mul_zero_right32 hb, mul_zero_right32 hc, add_zero_right32 zero_number32, and_self]

/-- A reading that is the bias. -/
theorem sub_self32 {x : F32} (hx : Finite x) : x -ᶠ x = lit 0 := by
  obtain ⟨a, rfl⟩ := F32.finite_iff.mp hx
  rw [F32.sub_eq, sub_self]
  rfl

/-! ### Gyrometer -/

/-- C140: with unit scales, no cross coefficients and any biases, a gyrometer reads the differences to its biases, each
rounded once; they are exact when they are at most half of the reading, and the reading itself when there is no bias. -/
theorem C140_gyr {g : Gyrometer F32} {c : GyrometerConfig F32} {x y z : F32} (hg : Gyrometer.Reachable g) (hc : Gyrometer.getConfig g = .ok c)
    (h1 : c.xScale = lit 1 ∧ c.yScale = lit 1 ∧ c.zScale = lit 1)
    (h0 : c.xy = lit 0 ∧ c.xz = lit 0 ∧ c.yx = lit 0 ∧ c.yz = lit 0 ∧ c.zx = lit 0 ∧ c.zy = lit 0)
    (hx : Finite x) (hy : Finite y) (hz : Finite z)
    (hd : Finite (x -ᶠ c.xBias) ∧ Finite (y -ᶠ c.yBias) ∧ Finite (z -ᶠ c.zBias)) :
    ∃ g' rx ry rz, Gyrometer.update x y z g = (.ok (), g') ∧ Gyrometer.getX g' = .ok rx ∧ Gyrometer.getY g' = .ok ry ∧ Gyrometer.getZ g' = .ok rz ∧
      ∀ t ∈ [(x, c.xBias, rx), (y, c.yBias, ry), (z, c.zBias, rz)],
        |⟪t.2.2⟫ - (⟪t.1⟫ - ⟪t.2.1⟫)| ≤ 1 / 2 ^ 24 * |⟪t.1⟫ - ⟪t.2.1⟫| + 1 / 2 ^ 150 ∧
        (F32.IsNumber t.1 → F32.IsNumber t.2.1 → 2 * |⟪t.1⟫ - ⟪t.2.1⟫| ≤ |⟪t.1⟫| → ⟪t.2.2⟫ = ⟪t.1⟫ - ⟪t.2.1⟫) ∧
        (F32.IsNumber t.1 → t.2.1 = lit 0 → t.2.2 = t.1) := by
  obtain ⟨hi, r, q, hh, hp, hr, hq⟩ := Gyrometer.config_of hg hc
  have bx : Finite c.xBias := hp 9 (by norm_num)
  have by_ : Finite c.yBias := hp 10 (by norm_num)
  have bz : Finite c.zBias := hp 11 (by norm_num)
  obtain ⟨s1, s2, s3⟩ := h1
  obtain ⟨o1, o2, o3, o4, o5, o6⟩ := h0
  obtain ⟨d1, d2, d3⟩ := hd
  have nx : F32.IsNumber (x -ᶠ c.xBias) := F32.fl_number d1
  have ny : F32.IsNumber (y -ᶠ c.yBias) := F32.fl_number d2
  have nz : F32.IsNumber (z -ᶠ c.zBias) := F32.fl_number d3
  have kx := corr_first nx d2 d3
  have ky := corr_second d1 ny d3
  have kz := corr_third d1 d2 nz
  have ex : Gyrometer.corrX c x y z = x -ᶠ c.xBias := by unfold Gyrometer.corrX; simp only [s1, s2, s3, o1, o2, o3, o4, o5, o6]; exact kx.2.2
  have ey : Gyrometer.corrY c x y z = y -ᶠ c.yBias := by unfold Gyrometer.corrY; simp only [s1, s2, s3, o1, o2, o3, o4, o5, o6]; exact ky.2.2
  have ez : Gyrometer.corrZ c x y z = z -ᶠ c.zBias := by unfold Gyrometer.corrZ; simp only [s1, s2, s3, o1, o2, o3, o4, o5, o6]; exact kz.2.2
  have hu : (Gyrometer.update x y z g).1 = .ok () := by
    rw [C43_gyr_iff hg hc, ex, ey, ez]
    simp only [s1, s2, s3, o1, o2, o3, o4, o5, o6]
    rw [kx.2.1, kx.1, ky.2.1, kz.2.1, ky.1]
    exact ⟨⟨hx, hy, hz⟩, ⟨d1, d2, d3⟩, ⟨d1, d1, d1⟩, ⟨Rounded.zero_finite, d2, d2⟩,
      Rounded.zero_finite, Rounded.zero_finite, d3⟩
  obtain ⟨-, g1, g2, g3, -⟩ := C43_gyr_formula hg hc (g' := (Gyrometer.update x y z g).2) (Prod.ext hu rfl)
  refine ⟨_, _, _, _, Prod.ext hu rfl, g1, g2, g3, ?_⟩
  rw [ex, ey, ez]
  have key : ∀ {x b : F32}, Finite x → Finite b → Finite (x -ᶠ b) →
      |⟪x -ᶠ b⟫ - (⟪x⟫ - ⟪b⟫)| ≤ 1 / 2 ^ 24 * |⟪x⟫ - ⟪b⟫| + 1 / 2 ^ 150 ∧
      (F32.IsNumber x → F32.IsNumber b → 2 * |⟪x⟫ - ⟪b⟫| ≤ |⟪x⟫| → ⟪x -ᶠ b⟫ = ⟪x⟫ - ⟪b⟫) ∧
      (F32.IsNumber x → b = lit 0 → x -ᶠ b = x) := by
    intro x b hx hb hd
    refine ⟨?_, fun h1 h2 h3 => (sub_near32 h1 h2 h3).2.1, fun h1 h2 => by rw [h2, sub_zero32 h1]⟩
    have := Rounded.sub_near hx hb hd
    unfold Near at this
    rw [Linalg.ru_eq, rη_eq] at this
    rw [show (1 : ℝ) / 2 ^ 24 = 1 / 16777216 by norm_num]
    exact this
  simp only [List.forall_mem_cons, List.not_mem_nil, false_imp_iff, implies_true, and_true]
  exact ⟨key hx bx d1, key hy by_ d2, key hz bz d3⟩

/-- C140: whatever its coefficients, a gyrometer whose readings are its biases reads exactly zero. -/
theorem C140_gyr_still {g : Gyrometer F32} {c : GyrometerConfig F32} (hg : Gyrometer.Reachable g) (hc : Gyrometer.getConfig g = .ok c) :
    ∃ g', Gyrometer.update c.xBias c.yBias c.zBias g = (.ok (), g') ∧ Gyrometer.getX g' = .ok (lit 0) ∧ Gyrometer.getY g' = .ok (lit 0) ∧
      Gyrometer.getZ g' = .ok (lit 0) := by
  obtain ⟨hi, r, q, hh, hp, hr, hq⟩ := Gyrometer.config_of hg hc
  have bx : Finite c.xBias := hp 9 (by norm_num)
  have by_ : Finite c.yBias := hp 10 (by norm_num)
  have bz : Finite c.zBias := hp 11 (by norm_num)
  have pf : ∀ v ∈ c.params, Finite v := Gyrometer.params_finite.mpr hp
  have ex := sub_self32 bx
  have ey := sub_self32 by_
  have ez := sub_self32 bz
  have kx := corr_null (a := c.xScale) (b := c.yx) (c := c.zx) (pf _ (by simp [GyrometerConfig.params])) (pf _ (by simp [GyrometerConfig.params])) (pf _ (by simp [GyrometerConfig.params]))
  have ky := corr_null (a := c.xy) (b := c.yScale) (c := c.zy) (pf _ (by simp [GyrometerConfig.params])) (pf _ (by simp [GyrometerConfig.params])) (pf _ (by simp [GyrometerConfig.params]))
  have kz := corr_null (a := c.xz) (b := c.yz) (c := c.zScale) (pf _ (by simp [GyrometerConfig.params])) (pf _ (by simp [GyrometerConfig.params])) (pf _ (by simp [GyrometerConfig.params]))
  have fx : Gyrometer.corrX c c.xBias c.yBias c.zBias = lit 0 := by unfold Gyrometer.corrX; rw [ex, ey, ez]; exact kx.2.2
  have fy : Gyrometer.corrY c c.xBias c.yBias c.zBias = lit 0 := by unfold Gyrometer.corrY; rw [ex, ey, ez]; exact ky.2.2
  have fz : Gyrometer.corrZ c c.xBias c.yBias c.zBias = lit 0 := by unfold Gyrometer.corrZ; rw [ex, ey, ez]; exact kz.2.2
  have z : Finite (lit 0 : F32) := Rounded.zero_finite
  have hu : (Gyrometer.update c.xBias c.yBias c.zBias g).1 = .ok () := by
    rw [C43_gyr_iff hg hc, fx, fy, fz, ex, ey, ez, kx.2.1, kx.1, ky.2.1, ky.1, kz.2.1, kz.1]
    exact ⟨⟨bx, by_, bz⟩, ⟨z, z, z⟩, ⟨z, z, z⟩, ⟨z, z, z⟩, z, z, z⟩
  obtain ⟨-, g1, g2, g3, -⟩ := C43_gyr_formula hg hc (g' := (Gyrometer.update c.xBias c.yBias c.zBias g).2) (Prod.ext hu rfl)
  exact ⟨_, Prod.ext hu rfl, by rw [g1, fx], by rw [g2, fy], by rw [g3, fz]⟩

/-- A gyrometer with biases 1, -1 and 0. -/
def Gyrometer.biasedF : GyrometerConfig F32 :=
  ⟨lit 1, lit 1, lit 1, lit 0, lit 0, lit 0, lit 0, lit 0, lit 0, lit 1, lit (-1), lit 0⟩

/-- It reads (3/2, -1/4, 0.1) as 1/2, 3/4 and the number nearest to 0.1; the biases of the sensor with twelve
different parameters are read as zero. -/
example : (∃ g g' rx rz, Gyrometer.Reachable g ∧ Gyrometer.getConfig g = .ok Gyrometer.biasedF ∧
      Gyrometer.update (lit (3 / 2)) (lit (-1 / 4)) (lit (1 / 10)) g = (.ok (), g') ∧ Gyrometer.getX g' = .ok rx ∧ ⟪rx⟫ = 1 / 2 ∧
      Gyrometer.getZ g' = .ok rz ∧ rz = lit (1 / 10)) ∧
    ∃ g g', Gyrometer.Reachable g ∧ Gyrometer.getConfig g = .ok Gyrometer.sampleF ∧
      Gyrometer.update (lit 1) (lit (-1)) (lit 4) g = (.ok (), g') ∧ Gyrometer.getY g' = .ok (lit 0) := by
  obtain ⟨g0, e, h0, hg0, -⟩ := Gyrometer.new_ok (F := F32)
  have hr0 : Gyrometer.Reachable g0 := ⟨g0, e, .refl g0⟩
  have mk : ∀ d : GyrometerConfig F32, (∀ v ∈ d.params, Finite v) → ∃ g, Gyrometer.Reachable g ∧ Gyrometer.getConfig g = .ok d := fun d hf =>
    ⟨(Gyrometer.init d g0).2, ⟨g0, e, .step (.init d) (.refl g0)⟩, C42_gyr_init (g' := (Gyrometer.init d g0).2) hr0
      (by rw [Gyrometer.init_ok hg0 h0 (Gyrometer.params_finite.mp hf)])⟩
  constructor
  · obtain ⟨g, hg, hc⟩ := mk Gyrometer.biasedF (by decide +kernel)
    obtain ⟨g', rx, ry, rz, h, hx, -, hz, hk⟩ := C140_gyr hg hc ⟨rfl, rfl, rfl⟩ ⟨rfl, rfl, rfl, rfl, rfl, rfl⟩
      (x := lit (3 / 2)) (y := lit (-1 / 4)) (z := lit (1 / 10)) (by decide +kernel) (by decide +kernel) (by decide +kernel)
      (by decide +kernel)
    simp only [List.forall_mem_cons, List.not_mem_nil, false_imp_iff, implies_true, and_true] at hk
    obtain ⟨k1, -, k3⟩ := hk
    have v1 : ⟪(lit 1 : F32)⟫ = ((1 : ℚ) : ℝ) := toReal_rat (by decide +kernel)
    have v3 : ⟪(lit (3 / 2) : F32)⟫ = ((3 / 2 : ℚ) : ℝ) := toReal_rat (by decide +kernel)
    refine ⟨g, g', rx, rz, hg, hc, h, hx, ?_, hz, k3.2.2 (by decide +kernel) rfl⟩
    have hb : Gyrometer.biasedF.xBias = lit 1 := rfl
    have := k1.2.1 (by decide +kernel) (by decide +kernel) (by rw [hb, v1, v3]; norm_num)
    rw [this, hb, v1, v3]
    norm_num
  · obtain ⟨g, hg, hc⟩ := mk Gyrometer.sampleF (by decide +kernel)
    obtain ⟨g', h, -, hy, -⟩ := C140_gyr_still hg hc
    exact ⟨g, g', hg, hc, h, hy⟩

/-! ### Accelerometer -/

/-- C140: with unit scales, no cross coefficients and any biases, a accelerometer reads the differences to its biases, each
rounded once; they are exact when they are at most half of the reading, and the reading itself when there is no bias. -/
theorem C140_acc {g : Accelerometer F32} {c : AccelerometerConfig F32} {x y z : F32} (hg : Accelerometer.Reachable g) (hc : Accelerometer.getConfig g = .ok c)
    (h1 : c.xScale = lit 1 ∧ c.yScale = lit 1 ∧ c.zScale = lit 1)
    (h0 : c.xy = lit 0 ∧ c.xz = lit 0 ∧ c.yx = lit 0 ∧ c.yz = lit 0 ∧ c.zx = lit 0 ∧ c.zy = lit 0)
    (hx : Finite x) (hy : Finite y) (hz : Finite z)
    (hd : Finite (x -ᶠ c.xBias) ∧ Finite (y -ᶠ c.yBias) ∧ Finite (z -ᶠ c.zBias)) :
    ∃ g' rx ry rz, Accelerometer.update x y z g = (.ok (), g') ∧ Accelerometer.getX g' = .ok rx ∧ Accelerometer.getY g' = .ok ry ∧ Accelerometer.getZ g' = .ok rz ∧
      ∀ t ∈ [(x, c.xBias, rx), (y, c.yBias, ry), (z, c.zBias, rz)],
        |⟪t.2.2⟫ - (⟪t.1⟫ - ⟪t.2.1⟫)| ≤ 1 / 2 ^ 24 * |⟪t.1⟫ - ⟪t.2.1⟫| + 1 / 2 ^ 150 ∧
        (F32.IsNumber t.1 → F32.IsNumber t.2.1 → 2 * |⟪t.1⟫ - ⟪t.2.1⟫| ≤ |⟪t.1⟫| → ⟪t.2.2⟫ = ⟪t.1⟫ - ⟪t.2.1⟫) ∧
        (F32.IsNumber t.1 → t.2.1 = lit 0 → t.2.2 = t.1) := by
  obtain ⟨hi, r, q, hh, hp, hr, hq⟩ := Accelerometer.config_of hg hc
  have bx : Finite c.xBias := hp 9 (by norm_num)
  have by_ : Finite c.yBias := hp 10 (by norm_num)
  have bz : Finite c.zBias := hp 11 (by norm_num)
  obtain ⟨s1, s2, s3⟩ := h1
  obtain ⟨o1, o2, o3, o4, o5, o6⟩ := h0
  obtain ⟨d1, d2, d3⟩ := hd
  have nx : F32.IsNumber (x -ᶠ c.xBias) := F32.fl_number d1
  have ny : F32.IsNumber (y -ᶠ c.yBias) := F32.fl_number d2
  have nz : F32.IsNumber (z -ᶠ c.zBias) := F32.fl_number d3
  have kx := corr_first nx d2 d3
  have ky := corr_second d1 ny d3
  have kz := corr_third d1 d2 nz
  have ex : Accelerometer.corrX c x y z = x -ᶠ c.xBias := by unfold Accelerometer.corrX; simp only [s1, s2, s3, o1, o2, o3, o4, o5, o6]; exact kx.2.2
  have ey : Accelerometer.corrY c x y z = y -ᶠ c.yBias := by unfold Accelerometer.corrY; simp only [s1, s2, s3, o1, o2, o3, o4, o5, o6]; exact ky.2.2
  have ez : Accelerometer.corrZ c x y z = z -ᶠ c.zBias := by unfold Accelerometer.corrZ; simp only [s1, s2, s3, o1, o2, o3, o4, o5, o6]; exact kz.2.2
  have hu : (Accelerometer.update x y z g).1 = .ok () := by
    rw [C43_acc_iff hg hc, ex, ey, ez]
    simp only [s1, s2, s3, o1, o2, o3, o4, o5, o6]
    rw [kx.2.1, kx.1, ky.2.1, kz.2.1, ky.1]
    exact ⟨⟨hx, hy, hz⟩, ⟨d1, d2, d3⟩, ⟨d1, d1, d1⟩, ⟨Rounded.zero_finite, d2, d2⟩,
      Rounded.zero_finite, Rounded.zero_finite, d3⟩
  obtain ⟨-, g1, g2, g3, -⟩ := C43_acc_formula hg hc (g' := (Accelerometer.update x y z g).2) (Prod.ext hu rfl)
  refine ⟨_, _, _, _, Prod.ext hu rfl, g1, g2, g3, ?_⟩
  rw [ex, ey, ez]
  have key : ∀ {x b : F32}, Finite x → Finite b → Finite (x -ᶠ b) →
      |⟪x -ᶠ b⟫ - (⟪x⟫ - ⟪b⟫)| ≤ 1 / 2 ^ 24 * |⟪x⟫ - ⟪b⟫| + 1 / 2 ^ 150 ∧
      (F32.IsNumber x → F32.IsNumber b → 2 * |⟪x⟫ - ⟪b⟫| ≤ |⟪x⟫| → ⟪x -ᶠ b⟫ = ⟪x⟫ - ⟪b⟫) ∧
      (F32.IsNumber x → b = lit 0 → x -ᶠ b = x) := by
    intro x b hx hb hd
    refine ⟨?_, fun h1 h2 h3 => (sub_near32 h1 h2 h3).2.1, fun h1 h2 => by rw [h2, sub_zero32 h1]⟩
    have := Rounded.sub_near hx hb hd
    unfold Near at this
    rw [Linalg.ru_eq, rη_eq] at this
    rw [show (1 : ℝ) / 2 ^ 24 = 1 / 16777216 by norm_num]
    exact this
  simp only [List.forall_mem_cons, List.not_mem_nil, false_imp_iff, implies_true, and_true]
  exact ⟨key hx bx d1, key hy by_ d2, key hz bz d3⟩

/-- C140: whatever its coefficients, a accelerometer whose readings are its biases reads exactly zero. -/
theorem C140_acc_still {g : Accelerometer F32} {c : AccelerometerConfig F32} (hg : Accelerometer.Reachable g) (hc : Accelerometer.getConfig g = .ok c) :
    ∃ g', Accelerometer.update c.xBias c.yBias c.zBias g = (.ok (), g') ∧ Accelerometer.getX g' = .ok (lit 0) ∧ Accelerometer.getY g' = .ok (lit 0) ∧
      Accelerometer.getZ g' = .ok (lit 0) := by
  obtain ⟨hi, r, q, hh, hp, hr, hq⟩ := Accelerometer.config_of hg hc
  have bx : Finite c.xBias := hp 9 (by norm_num)
  have by_ : Finite c.yBias := hp 10 (by norm_num)
  have bz : Finite c.zBias := hp 11 (by norm_num)
  have pf : ∀ v ∈ c.params, Finite v := Accelerometer.params_finite.mpr hp
  have ex := sub_self32 bx
  have ey := sub_self32 by_
  have ez := sub_self32 bz
  have kx := corr_null (a := c.xScale) (b := c.yx) (c := c.zx) (pf _ (by simp [AccelerometerConfig.params])) (pf _ (by simp [AccelerometerConfig.params])) (pf _ (by simp [AccelerometerConfig.params]))
  have ky := corr_null (a := c.xy) (b := c.yScale) (c := c.zy) (pf _ (by simp [AccelerometerConfig.params])) (pf _ (by simp [AccelerometerConfig.params])) (pf _ (by simp [AccelerometerConfig.params]))
  have kz := corr_null (a := c.xz) (b := c.yz) (c := c.zScale) (pf _ (by simp [AccelerometerConfig.params])) (pf _ (by simp [AccelerometerConfig.params])) (pf _ (by simp [AccelerometerConfig.params]))
  have fx : Accelerometer.corrX c c.xBias c.yBias c.zBias = lit 0 := by unfold Accelerometer.corrX; rw [ex, ey, ez]; exact kx.2.2
  have fy : Accelerometer.corrY c c.xBias c.yBias c.zBias = lit 0 := by unfold Accelerometer.corrY; rw [ex, ey, ez]; exact ky.2.2
  have fz : Accelerometer.corrZ c c.xBias c.yBias c.zBias = lit 0 := by unfold Accelerometer.corrZ; rw [ex, ey, ez]; exact kz.2.2
  have z : Finite (lit 0 : F32) := Rounded.zero_finite
  have hu : (Accelerometer.update c.xBias c.yBias c.zBias g).1 = .ok () := by
    rw [C43_acc_iff hg hc, fx, fy, fz, ex, ey, ez, kx.2.1, kx.1, ky.2.1, ky.1, kz.2.1, kz.1]
    exact ⟨⟨bx, by_, bz⟩, ⟨z, z, z⟩, ⟨z, z, z⟩, ⟨z, z, z⟩, z, z, z⟩
  obtain ⟨-, g1, g2, g3, -⟩ := C43_acc_formula hg hc (g' := (Accelerometer.update c.xBias c.yBias c.zBias g).2) (Prod.ext hu rfl)
  exact ⟨_, Prod.ext hu rfl, by rw [g1, fx], by rw [g2, fy], by rw [g3, fz]⟩

/-- A accelerometer with biases 1, -1 and 0. -/
def Accelerometer.biasedF : AccelerometerConfig F32 :=
  ⟨lit 1, lit 1, lit 1, lit 0, lit 0, lit 0, lit 0, lit 0, lit 0, lit 1, lit (-1), lit 0⟩

/-- It reads (3/2, -1/4, 0.1) as 1/2, 3/4 and the number nearest to 0.1; the biases of the sensor with twelve
different parameters are read as zero. -/
example : (∃ g g' rx rz, Accelerometer.Reachable g ∧ Accelerometer.getConfig g = .ok Accelerometer.biasedF ∧
      Accelerometer.update (lit (3 / 2)) (lit (-1 / 4)) (lit (1 / 10)) g = (.ok (), g') ∧ Accelerometer.getX g' = .ok rx ∧ ⟪rx⟫ = 1 / 2 ∧
      Accelerometer.getZ g' = .ok rz ∧ rz = lit (1 / 10)) ∧
    ∃ g g', Accelerometer.Reachable g ∧ Accelerometer.getConfig g = .ok Accelerometer.sampleF ∧
      Accelerometer.update (lit 1) (lit (-1)) (lit 4) g = (.ok (), g') ∧ Accelerometer.getY g' = .ok (lit 0) := by
  obtain ⟨g0, e, h0, hg0, -⟩ := Accelerometer.new_ok (F := F32)
  have hr0 : Accelerometer.Reachable g0 := ⟨g0, e, .refl g0⟩
  have mk : ∀ d : AccelerometerConfig F32, (∀ v ∈ d.params, Finite v) → ∃ g, Accelerometer.Reachable g ∧ Accelerometer.getConfig g = .ok d := fun d hf =>
    ⟨(Accelerometer.init d g0).2, ⟨g0, e, .step (.init d) (.refl g0)⟩, C42_acc_init (g' := (Accelerometer.init d g0).2) hr0
      (by rw [Accelerometer.init_ok hg0 h0 (Accelerometer.params_finite.mp hf)])⟩
  constructor
  · obtain ⟨g, hg, hc⟩ := mk Accelerometer.biasedF (by decide +kernel)
    obtain ⟨g', rx, ry, rz, h, hx, -, hz, hk⟩ := C140_acc hg hc ⟨rfl, rfl, rfl⟩ ⟨rfl, rfl, rfl, rfl, rfl, rfl⟩
      (x := lit (3 / 2)) (y := lit (-1 / 4)) (z := lit (1 / 10)) (by decide +kernel) (by decide +kernel) (by decide +kernel)
      (by decide +kernel)
    simp only [List.forall_mem_cons, List.not_mem_nil, false_imp_iff, implies_true, and_true] at hk
    obtain ⟨k1, -, k3⟩ := hk
    have v1 : ⟪(lit 1 : F32)⟫ = ((1 : ℚ) : ℝ) := toReal_rat (by decide +kernel)
    have v3 : ⟪(lit (3 / 2) : F32)⟫ = ((3 / 2 : ℚ) : ℝ) := toReal_rat (by decide +kernel)
    refine ⟨g, g', rx, rz, hg, hc, h, hx, ?_, hz, k3.2.2 (by decide +kernel) rfl⟩
    have hb : Accelerometer.biasedF.xBias = lit 1 := rfl
    have := k1.2.1 (by decide +kernel) (by decide +kernel) (by rw [hb, v1, v3]; norm_num)
    rw [this, hb, v1, v3]
    norm_num
  · obtain ⟨g, hg, hc⟩ := mk Accelerometer.sampleF (by decide +kernel)
    obtain ⟨g', h, -, hy, -⟩ := C140_acc_still hg hc
    exact ⟨g, g', hg, hc, h, hy⟩

/-! ### Magnetometer -/

/-- C140: with unit scales, no cross coefficients and any biases, a magnetometer reads the differences to its biases, each
rounded once; they are exact when they are at most half of the reading, and the reading itself when there is no bias. -/
theorem C140_mag {g : Magnetometer F32} {c : MagnetometerConfig F32} {x y z : F32} (hg : Magnetometer.Reachable g) (hc : Magnetometer.getConfig g = .ok c)
    (h1 : c.xScale = lit 1 ∧ c.yScale = lit 1 ∧ c.zScale = lit 1)
    (h0 : c.xy = lit 0 ∧ c.xz = lit 0 ∧ c.yx = lit 0 ∧ c.yz = lit 0 ∧ c.zx = lit 0 ∧ c.zy = lit 0)
    (hx : Finite x) (hy : Finite y) (hz : Finite z)
    (hd : Finite (x -ᶠ c.xBias) ∧ Finite (y -ᶠ c.yBias) ∧ Finite (z -ᶠ c.zBias)) :
    ∃ g' rx ry rz, Magnetometer.update x y z g = (.ok (), g') ∧ Magnetometer.getX g' = .ok rx ∧ Magnetometer.getY g' = .ok ry ∧ Magnetometer.getZ g' = .ok rz ∧
      ∀ t ∈ [(x, c.xBias, rx), (y, c.yBias, ry), (z, c.zBias, rz)],
        |⟪t.2.2⟫ - (⟪t.1⟫ - ⟪t.2.1⟫)| ≤ 1 / 2 ^ 24 * |⟪t.1⟫ - ⟪t.2.1⟫| + 1 / 2 ^ 150 ∧
        (F32.IsNumber t.1 → F32.IsNumber t.2.1 → 2 * |⟪t.1⟫ - ⟪t.2.1⟫| ≤ |⟪t.1⟫| → ⟪t.2.2⟫ = ⟪t.1⟫ - ⟪t.2.1⟫) ∧
        (F32.IsNumber t.1 → t.2.1 = lit 0 → t.2.2 = t.1) := by
  obtain ⟨hi, r, q, hh, hp, hr, hq⟩ := Magnetometer.config_of hg hc
  have bx : Finite c.xBias := hp 9 (by norm_num)
  have by_ : Finite c.yBias := hp 10 (by norm_num)
  have bz : Finite c.zBias := hp 11 (by norm_num)
  obtain ⟨s1, s2, s3⟩ := h1
  obtain ⟨o1, o2, o3, o4, o5, o6⟩ := h0
  obtain ⟨d1, d2, d3⟩ := hd
  have nx : F32.IsNumber (x -ᶠ c.xBias) := F32.fl_number d1
  have ny : F32.IsNumber (y -ᶠ c.yBias) := F32.fl_number d2
  have nz : F32.IsNumber (z -ᶠ c.zBias) := F32.fl_number d3
  have kx := corr_first nx d2 d3
  have ky := corr_second d1 ny d3
  have kz := corr_third d1 d2 nz
  have ex : Magnetometer.corrX c x y z = x -ᶠ c.xBias := by unfold Magnetometer.corrX; simp only [s1, s2, s3, o1, o2, o3, o4, o5, o6]; exact kx.2.2
  have ey : Magnetometer.corrY c x y z = y -ᶠ c.yBias := by unfold Magnetometer.corrY; simp only [s1, s2, s3, o1, o2, o3, o4, o5, o6]; exact ky.2.2
  have ez : Magnetometer.corrZ c x y z = z -ᶠ c.zBias := by unfold Magnetometer.corrZ; simp only [s1, s2, s3, o1, o2, o3, o4, o5, o6]; exact kz.2.2
  have hu : (Magnetometer.update x y z g).1 = .ok () := by
    rw [C43_mag_iff hg hc, ex, ey, ez]
    simp only [s1, s2, s3, o1, o2, o3, o4, o5, o6]
    rw [kx.2.1, kx.1, ky.2.1, kz.2.1, ky.1]
    exact ⟨⟨hx, hy, hz⟩, ⟨d1, d2, d3⟩, ⟨d1, d1, d1⟩, ⟨Rounded.zero_finite, d2, d2⟩,
      Rounded.zero_finite, Rounded.zero_finite, d3⟩
  obtain ⟨-, g1, g2, g3, -⟩ := C43_mag_formula hg hc (g' := (Magnetometer.update x y z g).2) (Prod.ext hu rfl)
  refine ⟨_, _, _, _, Prod.ext hu rfl, g1, g2, g3, ?_⟩
  rw [ex, ey, ez]
  have key : ∀ {x b : F32}, Finite x → Finite b → Finite (x -ᶠ b) →
      |⟪x -ᶠ b⟫ - (⟪x⟫ - ⟪b⟫)| ≤ 1 / 2 ^ 24 * |⟪x⟫ - ⟪b⟫| + 1 / 2 ^ 150 ∧
      (F32.IsNumber x → F32.IsNumber b → 2 * |⟪x⟫ - ⟪b⟫| ≤ |⟪x⟫| → ⟪x -ᶠ b⟫ = ⟪x⟫ - ⟪b⟫) ∧
      (F32.IsNumber x → b = lit 0 → x -ᶠ b = x) := by
    intro x b hx hb hd
    refine ⟨?_, fun h1 h2 h3 => (sub_near32 h1 h2 h3).2.1, fun h1 h2 => by rw [h2, sub_zero32 h1]⟩
    have := Rounded.sub_near hx hb hd
    unfold Near at this
    rw [Linalg.ru_eq, rη_eq] at this
    rw [show (1 : ℝ) / 2 ^ 24 = 1 / 16777216 by norm_num]
    exact this
  simp only [List.forall_mem_cons, List.not_mem_nil, false_imp_iff, implies_true, and_true]
  exact ⟨key hx bx d1, key hy by_ d2, key hz bz d3⟩

/-- C140: whatever its coefficients, a magnetometer whose readings are its biases reads exactly zero. -/
theorem C140_mag_still {g : Magnetometer F32} {c : MagnetometerConfig F32} (hg : Magnetometer.Reachable g) (hc : Magnetometer.getConfig g = .ok c) :
    ∃ g', Magnetometer.update c.xBias c.yBias c.zBias g = (.ok (), g') ∧ Magnetometer.getX g' = .ok (lit 0) ∧ Magnetometer.getY g' = .ok (lit 0) ∧
      Magnetometer.getZ g' = .ok (lit 0) := by
  obtain ⟨hi, r, q, hh, hp, hr, hq⟩ := Magnetometer.config_of hg hc
  have bx : Finite c.xBias := hp 9 (by norm_num)
  have by_ : Finite c.yBias := hp 10 (by norm_num)
  have bz : Finite c.zBias := hp 11 (by norm_num)
  have pf : ∀ v ∈ c.params, Finite v := Magnetometer.params_finite.mpr hp
  have ex := sub_self32 bx
  have ey := sub_self32 by_
  have ez := sub_self32 bz
  have kx := corr_null (a := c.xScale) (b := c.xy) (c := c.yx) (pf _ (by simp [MagnetometerConfig.params])) (pf _ (by simp [MagnetometerConfig.params])) (pf _ (by simp [MagnetometerConfig.params]))
  have ky := corr_null (a := c.xz) (b := c.yScale) (c := c.zx) (pf _ (by simp [MagnetometerConfig.params])) (pf _ (by simp [MagnetometerConfig.params])) (pf _ (by simp [MagnetometerConfig.params]))
  have kz := corr_null (a := c.yz) (b := c.zy) (c := c.zScale) (pf _ (by simp [MagnetometerConfig.params])) (pf _ (by simp [MagnetometerConfig.params])) (pf _ (by simp [MagnetometerConfig.params]))
  have fx : Magnetometer.corrX c c.xBias c.yBias c.zBias = lit 0 := by unfold Magnetometer.corrX; rw [ex, ey, ez]; exact kx.2.2
  have fy : Magnetometer.corrY c c.xBias c.yBias c.zBias = lit 0 := by unfold Magnetometer.corrY; rw [ex, ey, ez]; exact ky.2.2
  have fz : Magnetometer.corrZ c c.xBias c.yBias c.zBias = lit 0 := by unfold Magnetometer.corrZ; rw [ex, ey, ez]; exact kz.2.2
  have z : Finite (lit 0 : F32) := Rounded.zero_finite
  have hu : (Magnetometer.update c.xBias c.yBias c.zBias g).1 = .ok () := by
    rw [C43_mag_iff hg hc, fx, fy, fz, ex, ey, ez, kx.2.1, kx.1, ky.2.1, ky.1, kz.2.1, kz.1]
    exact ⟨⟨bx, by_, bz⟩, ⟨z, z, z⟩, ⟨z, z, z⟩, ⟨z, z, z⟩, z, z, z⟩
  obtain ⟨-, g1, g2, g3, -⟩ := C43_mag_formula hg hc (g' := (Magnetometer.update c.xBias c.yBias c.zBias g).2) (Prod.ext hu rfl)
  exact ⟨_, Prod.ext hu rfl, by rw [g1, fx], by rw [g2, fy], by rw [g3, fz]⟩

/-- A magnetometer with biases 1, -1 and 0. -/
def Magnetometer.biasedF : MagnetometerConfig F32 :=
  ⟨lit 1, lit 1, lit 1, lit 0, lit 0, lit 0, lit 0, lit 0, lit 0, lit 1, lit (-1), lit 0⟩

/-- It reads (3/2, -1/4, 0.1) as 1/2, 3/4 and the number nearest to 0.1; the biases of the sensor with twelve
different parameters are read as zero. -/
example : (∃ g g' rx rz, Magnetometer.Reachable g ∧ Magnetometer.getConfig g = .ok Magnetometer.biasedF ∧
      Magnetometer.update (lit (3 / 2)) (lit (-1 / 4)) (lit (1 / 10)) g = (.ok (), g') ∧ Magnetometer.getX g' = .ok rx ∧ ⟪rx⟫ = 1 / 2 ∧
      Magnetometer.getZ g' = .ok rz ∧ rz = lit (1 / 10)) ∧
    ∃ g g', Magnetometer.Reachable g ∧ Magnetometer.getConfig g = .ok Magnetometer.sampleF ∧
      Magnetometer.update (lit 1) (lit (-1)) (lit 4) g = (.ok (), g') ∧ Magnetometer.getY g' = .ok (lit 0) := by
  obtain ⟨g0, e, h0, hg0, -⟩ := Magnetometer.new_ok (F := F32)
  have hr0 : Magnetometer.Reachable g0 := ⟨g0, e, .refl g0⟩
  have mk : ∀ d : MagnetometerConfig F32, (∀ v ∈ d.params, Finite v) → ∃ g, Magnetometer.Reachable g ∧ Magnetometer.getConfig g = .ok d := fun d hf =>
    ⟨(Magnetometer.init d g0).2, ⟨g0, e, .step (.init d) (.refl g0)⟩, C42_mag_init (g' := (Magnetometer.init d g0).2) hr0
      (by rw [Magnetometer.init_ok hg0 h0 (Magnetometer.params_finite.mp hf)])⟩
  constructor
  · obtain ⟨g, hg, hc⟩ := mk Magnetometer.biasedF (by decide +kernel)
    obtain ⟨g', rx, ry, rz, h, hx, -, hz, hk⟩ := C140_mag hg hc ⟨rfl, rfl, rfl⟩ ⟨rfl, rfl, rfl, rfl, rfl, rfl⟩
      (x := lit (3 / 2)) (y := lit (-1 / 4)) (z := lit (1 / 10)) (by decide +kernel) (by decide +kernel) (by decide +kernel)
      (by decide +kernel)
    simp only [List.forall_mem_cons, List.not_mem_nil, false_imp_iff, implies_true, and_true] at hk
    obtain ⟨k1, -, k3⟩ := hk
    have v1 : ⟪(lit 1 : F32)⟫ = ((1 : ℚ) : ℝ) := toReal_rat (by decide +kernel)
    have v3 : ⟪(lit (3 / 2) : F32)⟫ = ((3 / 2 : ℚ) : ℝ) := toReal_rat (by decide +kernel)
    refine ⟨g, g', rx, rz, hg, hc, h, hx, ?_, hz, k3.2.2 (by decide +kernel) rfl⟩
    have hb : Magnetometer.biasedF.xBias = lit 1 := rfl
    have := k1.2.1 (by decide +kernel) (by decide +kernel) (by rw [hb, v1, v3]; norm_num)
    rw [this, hb, v1, v3]
    norm_num
  · obtain ⟨g, hg, hc⟩ := mk Magnetometer.sampleF (by decide +kernel)
    obtain ⟨g', h, -, hy, -⟩ := C140_mag_still hg hc
    exact ⟨g, g', hg, hc, h, hy⟩

end Verif
