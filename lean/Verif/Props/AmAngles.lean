import Verif.Props.AquaAngles
import Verif.Props.RoundedAmStep

/-
AQUA in the AM mode: the distance of the attitude to the true one under noise, and the Euler angles (C126).
-/

set_option linter.unusedSectionVars false

namespace Verif
open Scalar Finset

namespace Aqua

theorem norm_pure (u : Fin 3 → ℝ) : ‖mkQ 0 (u 0) (u 1) (u 2)‖ = norm3 u := by
  rw [norm_mkQ, norm3]
  congr 1
  ring

theorem cross_sq (u v : Fin 3 → ℝ) : ‖crossQ (mkQ 0 (u 0) (u 1) (u 2)) (mkQ 0 (v 0) (v 1) (v 2))‖ ^ 2 =
    norm3 u ^ 2 * norm3 v ^ 2 - (u 0 * v 0 + u 1 * v 1 + u 2 * v 2) ^ 2 := by
  rw [crossQ, norm_mkQ, Real.sq_sqrt (by positivity), norm3_sq, norm3_sq]
  simp only [mkQ]
  ring

/-- A horizontal part of at least `l` whose second component is below 51e-6. -/
theorem heading_of_image {v : Fin 3 → ℝ} {x z l : ℝ} (x0 : 0 < x) (e : ‖pureQ v - mkQ 0 x 0 z‖ ≤ 51 / 10 ^ 6) (l0 : 1 / 10 ^ 3 ≤ l)
    (hl : l ≤ hor v) : hor v - v 0 ≤ (75 / 10 ^ 6 / l) ^ 2 / 2 * hor v := by
  have e3 : (v 0 - x) ^ 2 + v 1 ^ 2 + (v 2 - z) ^ 2 ≤ (51 / 10 ^ 6) ^ 2 := by
    have := pow_le_pow_left₀ (norm_nonneg _) e 2
    rw [show pureQ v - mkQ 0 x 0 z = mkQ 0 (v 0 - x) (v 1) (v 2 - z) by apply Quaternion.ext <;> simp [pureQ],
      norm_mkQ, Real.sq_sqrt (by positivity)] at this
    linarith
  have H2 : hor v ^ 2 = v 0 * v 0 + v 1 * v 1 := by
    rw [hor, Real.sq_sqrt (add_nonneg (mul_self_nonneg (v 0)) (mul_self_nonneg (v 1)))]
  clear e
  generalize hor v = H at *
  generalize v 0 = a at *
  generalize v 1 = b at *
  generalize v 2 = c at *
  have l00 : 0 < l := lt_of_lt_of_le (by norm_num) l0
  have H0 : 0 < H := lt_of_lt_of_le l00 hl
  have v1 : b ^ 2 ≤ (51 / 10 ^ 6) ^ 2 := by linarith [sq_nonneg (a - x), sq_nonneg (c - z)]
  have v0 : -(51 / 10 ^ 6) ≤ a - x := (abs_le_of_sq_le_sq' (by linarith [sq_nonneg b, sq_nonneg (c - z)]) (by norm_num)).1
  have v0' : 0 < a := by
    by_contra hc
    rw [not_lt] at hc
    have s1 : a ^ 2 ≤ (51 / 10 ^ 6) ^ 2 := sq_le_sq' (by linarith) (hc.trans (by norm_num))
    have s2 : (1 / 10 ^ 3) ^ 2 ≤ H ^ 2 := pow_le_pow_left₀ (by norm_num) (l0.trans hl) 2
    have s3 : H ^ 2 = a ^ 2 + b ^ 2 := by linarith
    rw [s3] at s2
    norm_num at s1 s2 v1
    linarith
  have f1 : (H - a) * H ≤ b ^ 2 := by
    have s3 : H ^ 2 = a ^ 2 + b ^ 2 := by linarith
    have : a ≤ H := (abs_le_of_sq_le_sq' (by linarith [sq_nonneg b]) H0.le).2
    have := mul_nonneg v0'.le (sub_nonneg.mpr this)
    linarith
  have f2 : b ^ 2 ≤ (75 / 10 ^ 6 / l) ^ 2 / 2 * H * H := by
    have : 1 ≤ H / l := (one_le_div l00).mpr hl
    have e : (75 / 10 ^ 6 / l) ^ 2 / 2 * H * H = (75 / 10 ^ 6) ^ 2 / 2 * (H / l) ^ 2 := by ring
    rw [e]
    have : 1 ≤ (H / l) ^ 2 := one_le_pow₀ this
    norm_num at v1 ⊢
    linarith
  exact le_of_mul_le_mul_right (f1.trans f2) H0

theorem dot3_le (u v : Fin 3 → ℝ) : |u 0 * v 0 + u 1 * v 1 + u 2 * v 2| ≤ norm3 u * norm3 v := by
  refine abs_le_of_sq_le_sq ?_ (mul_nonneg (norm3_nonneg _) (norm3_nonneg _))
  have := cross_sq u v
  rw [mul_pow]
  linarith [sq_nonneg ‖crossQ (mkQ 0 (u 0) (u 1) (u 2)) (mkQ 0 (v 0) (v 1) (v 2))‖]

/-- The angle between two readings against that between the two true directions. -/
theorem dot3_near {a m g b : Fin 3 → ℝ} {ν μ : ℝ} (ha : norm3 a = 1) (hb : norm3 b = 1) (hν : norm3 (g - a) ≤ ν)
    (hμ : norm3 (b - m) ≤ μ) :
    |a 0 * m 0 + a 1 * m 1 + a 2 * m 2| ≤ |g 0 * b 0 + g 1 * b 1 + g 2 * b 2| + (ν + μ) := by
  have h1 := dot3_le (g - a) b
  have h2 := dot3_le a (b - m)
  rw [hb, mul_one] at h1
  rw [ha, one_mul] at h2
  simp only [Pi.sub_apply] at h1 h2
  have e : a 0 * m 0 + a 1 * m 1 + a 2 * m 2 = (g 0 * b 0 + g 1 * b 1 + g 2 * b 2) -
      ((g 0 - a 0) * b 0 + (g 1 - a 1) * b 1 + (g 2 - a 2) * b 2) -
      (a 0 * (b 0 - m 0) + a 1 * (b 1 - m 1) + a 2 * (b 2 - m 2)) := by ring
  rw [e]
  refine (abs_sub _ _).trans ?_
  have := abs_sub (g 0 * b 0 + g 1 * b 1 + g 2 * b 2) ((g 0 - a 0) * b 0 + (g 1 - a 1) * b 1 + (g 2 - a 2) * b 2)
  linarith

/-- From the images under a nearly unit quaternion to the alignment of the unit quaternion beside it. -/
theorem aligned_of_images {P : Quaternion ℝ} (hP : |‖P‖ - 1| ≤ 1 / 10 ^ 6) {a m : Fin 3 → ℝ} (ha : epsilon ℝ < norm3 a)
    (hm : epsilon ℝ < norm3 m) {k l x z : ℝ}
    (c1 : ‖star P * mkQ 0 (a 0) (a 1) (a 2) * P - mkQ 0 0 0 (-norm3 a)‖ ≤ 3 / 10 ^ 5 * norm3 a) (x0 : 0 < x)
    (c2 : ‖star P * mkQ 0 (m 0) (m 1) (m 2) * P - mkQ 0 x 0 z‖ ≤ 5 / 10 ^ 5 * norm3 m)
    (hk : k * norm3 a = a 0 * dir m 0 + a 1 * dir m 1 + a 2 * dir m 2) (l0 : 1 / 10 ^ 3 ≤ l)
    (hl : l ^ 2 + (|k| + 33 / 10 ^ 6) ^ 2 ≤ 1) : Aligned (unitOf P) a (dir m) (33 / 10 ^ 6) (75 / 10 ^ 6 / l) := by
  obtain ⟨p1, p2⟩ := abs_le.mp hP
  obtain ⟨n, hn⟩ : ∃ n, n = ‖P‖ := ⟨_, rfl⟩
  rw [← hn] at p1 p2
  have n0 : 0 < n := by norm_num at p1; linarith
  have a0 : 0 < norm3 a := Linalg.eps_pos.trans ha
  have m0 : 0 < norm3 m := Linalg.eps_pos.trans hm
  have eU : unitOf P = n⁻¹ • P := by
    unfold unitOf
    rw [← hn, if_pos (by norm_num [epsilon] at p1 ⊢; linarith)]
  have hU : ‖unitOf P‖ = 1 := by rw [eU, norm_smul, norm_inv, Real.norm_of_nonneg n0.le, ← hn, inv_mul_cancel₀ n0.ne']
  have turn : ∀ X : Quaternion ℝ, star (unitOf P) * X * unitOf P = (n ^ 2)⁻¹ • (star P * X * P) := by
    intro X
    have : star (n⁻¹ • P) = n⁻¹ • star P := by simp
    rw [eU, this, smul_mul_assoc, smul_mul_assoc, mul_smul_comm, smul_smul, sq, mul_inv]
  have q1 : 1 - 3 / 10 ^ 6 ≤ n ^ 2 := by nlinarith
  have q2 : n ^ 2 ≤ 1 + 21 / 10 ^ 7 := by nlinarith
  have q1' : 1 - 21 / 10 ^ 7 ≤ n ^ 2 := by nlinarith
  have q0 : 0 < n ^ 2 := by positivity
  have t : norm3 a + unrot (unitOf P) a 2 ≤ (33 / 10 ^ 6) ^ 2 / 2 * norm3 a := by
    refine (tilt_iff (unrot_norm (normSq_of_norm hU) a) a0 (by norm_num)).mpr ?_
    rw [unrot_eq hU, turn]
    have e1 : (n ^ 2)⁻¹ • (star P * pureQ a * P) - mkQ 0 0 0 (-norm3 a) =
        (n ^ 2)⁻¹ • ((star P * pureQ a * P - mkQ 0 0 0 (-norm3 a)) + (1 - n ^ 2) • mkQ 0 0 0 (-norm3 a)) := by
      rw [sub_smul, one_smul, smul_add, smul_sub, smul_sub, smul_smul, inv_mul_cancel₀ q0.ne', one_smul]
      abel
    rw [e1, norm_smul, norm_inv, Real.norm_of_nonneg q0.le, inv_mul_le_iff₀ q0]
    refine (norm_add_le _ _).trans ?_
    have e2 : ‖mkQ 0 0 0 (-norm3 a)‖ = norm3 a := by
      rw [norm_mkQ, show (0 : ℝ) ^ 2 + 0 ^ 2 + 0 ^ 2 + (-norm3 a) ^ 2 = norm3 a ^ 2 by ring, Real.sqrt_sq a0.le]
    have e3 : ‖(1 - n ^ 2) • mkQ 0 0 0 (-norm3 a)‖ ≤ 21 / 10 ^ 7 * norm3 a := by
      rw [norm_smul, e2, Real.norm_eq_abs]
      exact mul_le_mul_of_nonneg_right (abs_le.mpr ⟨by linarith, by linarith⟩) a0.le
    have e4 : (1 - 21 / 10 ^ 7) * (33 / 10 ^ 6 * norm3 a) ≤ n ^ 2 * (33 / 10 ^ 6 * norm3 a) :=
      mul_le_mul_of_nonneg_right q1' (by positivity)
    have e5 : ‖star P * pureQ a * P - mkQ 0 0 0 (-norm3 a)‖ ≤ 3 / 10 ^ 5 * norm3 a := c1
    norm_num at *
    linarith
  have hor_l := hor_ge hU rfl a0 (dir_norm hm) (by norm_num) t hk hl
  refine ⟨t, ?_⟩
  have e1 : pureQ (unrot (unitOf P) (dir m)) - mkQ 0 ((n ^ 2)⁻¹ * (norm3 m)⁻¹ * x) 0 ((n ^ 2)⁻¹ * (norm3 m)⁻¹ * z) =
      ((n ^ 2)⁻¹ * (norm3 m)⁻¹) • (star P * mkQ 0 (m 0) (m 1) (m 2) * P - mkQ 0 x 0 z) := by
    have d : pureQ (dir m) = (norm3 m)⁻¹ • mkQ 0 (m 0) (m 1) (m 2) := by
      rw [mkQ_smul]
      simp [pureQ, dir, if_pos hm, div_eq_inv_mul]
    rw [unrot_eq hU, turn, d, mul_smul_comm, smul_mul_assoc, smul_smul, smul_sub, mkQ_smul]
    simp
  have e2 : ‖pureQ (unrot (unitOf P) (dir m)) - mkQ 0 ((n ^ 2)⁻¹ * (norm3 m)⁻¹ * x) 0 ((n ^ 2)⁻¹ * (norm3 m)⁻¹ * z)‖ ≤ 51 / 10 ^ 6 := by
    rw [e1, norm_smul, Real.norm_of_nonneg (by positivity), mul_assoc, inv_mul_le_iff₀ q0, inv_mul_le_iff₀ m0]
    refine c2.trans ?_
    have : norm3 m * ((1 - 21 / 10 ^ 7) * (51 / 10 ^ 6)) ≤ norm3 m * (n ^ 2 * (51 / 10 ^ 6)) := by gcongr
    norm_num at *
    linarith
  exact heading_of_image (by positivity) e2 l0 hor_l

section
variable {F : Type} [Scalar F] [Rounded F] [Literals F] {i : AquaInit F} {s : Aqua F}

/-- C126: one update in the AM mode in binary32, whatever the state before. The attitude is aligned with the vectors `a` and
`m` that were read up to 33e-6 in tilt and up to 75e-6 over `l` in heading, where `l` is a lower bound on the horizontal part
of the direction of the field. -/
theorem C126_aligned (hs : Started i s) (hmode : i.mode = .AM) {c : AccelerometerConfig F} {d : MagnetometerConfig F}
    (hc : s.getAccelerometerConfig = .ok c) (hd : s.getMagnetometerConfig = .ok d) {gx gy gz : Option F}
    {ax ay az mx my mz p q r u v w : F} (ra : Accelerometer.Reads c ax ay az p q r)
    (rm : Magnetometer.Reads d mx my mz u v w) {a m : Fin 3 → ℝ} (ha : a = ![⟪p⟫, ⟪q⟫, ⟪r⟫]) (hm : m = ![⟪u⟫, ⟪v⟫, ⟪w⟫])
    (alo : 10001 / 10 ^ 8 < norm3 a) (ahi : norm3 a ≤ 2 ^ 63) (mlo : 10001 / 10 ^ 8 < norm3 m) (mhi : norm3 m ≤ 2 ^ 63)
    {k l : ℝ} (hk : k * norm3 a = a 0 * dir m 0 + a 1 * dir m 1 + a 2 * dir m 2) (l0 : 1 / 10 ^ 3 ≤ l)
    (hl : l ^ 2 + (|k| + 33 / 10 ^ 6) ^ 2 ≤ 1) :
    ∃ s', update gx gy gz ax ay az mx my mz s = (.ok (), s') ∧
      ShowsF s' fun f => NearUnit f ∧ Aligned (unitOf (qval f)) a (dir m) (33 / 10 ^ 6) (75 / 10 ^ 6 / l) := by
  have ha' : epsilon ℝ < norm3 a := lt_trans (by norm_num [epsilon]) alo
  have hm' : epsilon ℝ < norm3 m := lt_trans (by norm_num [epsilon]) mlo
  have a0 : 0 < norm3 a := Linalg.eps_pos.trans ha'
  have m0 : 0 < norm3 m := Linalg.eps_pos.trans hm'
  have nA := norm_pure a
  have nM := norm_pure m
  have eA : mkQ 0 (a 0) (a 1) (a 2) = mkQ 0 ⟪p⟫ ⟪q⟫ ⟪r⟫ := by rw [ha]; rfl
  have eM : mkQ 0 (m 0) (m 1) (m 2) = mkQ 0 ⟪u⟫ ⟪v⟫ ⟪w⟫ := by rw [hm]; rfl
  have hx : ‖mkQ 0 (a 0) (a 1) (a 2)‖ * ‖mkQ 0 (m 0) (m 1) (m 2)‖ / 10 ^ 4 ≤
      ‖crossQ (mkQ 0 (a 0) (a 1) (a 2)) (mkQ 0 (m 0) (m 1) (m 2))‖ := by
    refine le_of_sq_le_sq ?_ (norm_nonneg _)
    rw [cross_sq, nA, nM]
    have hd' : a 0 * m 0 + a 1 * m 1 + a 2 * m 2 = k * norm3 a * norm3 m := by
      rw [hk]
      unfold dir
      simp only [if_pos hm']
      field_simp
    rw [hd']
    have hl2 : (1 / 10 ^ 3) ^ 2 ≤ l ^ 2 := by gcongr
    have hk2 : k ^ 2 ≤ (|k| + 33 / 10 ^ 6) ^ 2 := by
      rw [← sq_abs k]
      exact pow_le_pow_left₀ (abs_nonneg _) (by linarith) 2
    have h1 : 1 / 10 ^ 8 ≤ 1 - k ^ 2 := by norm_num at *; linarith
    have := mul_le_mul_of_nonneg_left h1 (by positivity : 0 ≤ norm3 a ^ 2 * norm3 m ^ 2)
    norm_num at *
    nlinarith
  obtain ⟨s', e, v', f, g1, g2, g3, g4, g5, x, z, x0, g6⟩ := C89_align hs hmode hc hd ra rm (gx := gx) (gy := gy) (gz := gz) eA eM
    (nA ▸ alo) (nA ▸ ahi) (nM ▸ mlo) (nM ▸ mhi) hx
  rw [nA] at g5
  rw [nM] at g6
  exact ⟨s', e, v', f, g1, g2, g3, g4, aligned_of_images g4 ha' hm' g5 x0 g6 hk l0 hl⟩

/-- C126: the roll, pitch and yaw read after one update in the AM mode in binary32, whatever the state before, when the
readings `a` and `m` differ in direction by `ν` and `μ` from the true vertical `g` and the true field `b`. -/
theorem C126_angles [Arcs F] (hs : Started i s) (hmode : i.mode = .AM) {c : AccelerometerConfig F} {d : MagnetometerConfig F}
    (hc : s.getAccelerometerConfig = .ok c) (hd : s.getMagnetometerConfig = .ok d) {gx gy gz : Option F}
    {ax ay az mx my mz p q r u v w : F} (ra : Accelerometer.Reads c ax ay az p q r)
    (rm : Magnetometer.Reads d mx my mz u v w) {a m g b : Fin 3 → ℝ} (ha : a = ![⟪p⟫, ⟪q⟫, ⟪r⟫]) (hm : m = ![⟪u⟫, ⟪v⟫, ⟪w⟫])
    (alo : 10001 / 10 ^ 8 < norm3 a) (ahi : norm3 a ≤ 2 ^ 63) (mlo : 10001 / 10 ^ 8 < norm3 m) (mhi : norm3 m ≤ 2 ^ 63)
    {Q : Quaternion ℝ} (hQ : ‖Q‖ = 1) {x z l ν μ : ℝ}
    (hg : Q * mkQ 0 (g 0) (g 1) (g 2) * star Q = mkQ 0 0 0 (-1)) (hb : Q * mkQ 0 (b 0) (b 1) (b 2) * star Q = mkQ 0 x 0 z)
    (x0 : 0 < x) (hxz : x ^ 2 + z ^ 2 = 1) (hν : norm3 (g - dir a) ≤ ν) (hμ : norm3 (b - dir m) ≤ μ) (l0 : 1 / 10 ^ 3 ≤ l)
    (hl : l ^ 2 + (|z| + (33 / 10 ^ 6 + ν + μ)) ^ 2 ≤ 1) (hS : (33 / 10 ^ 6 + ν) * (1 + |z| / x) ≤ 1 / 10)
    (he : 75 / 10 ^ 6 / l + μ / l ≤ 1 / 4) {phi theta psi D : ℝ}
    (e : toMatrix 3 3 (dcmOf Q) = rotZ psi * rotY theta * rotX phi) (ht : |theta| ≤ Real.pi / 2)
    (hD : 54 / 100 * ((33 / 10 ^ 6 + ν) * (1 + |z| / x)) + 59 / 100 * (75 / 10 ^ 6 / l + μ / l) + 1 / 10 ^ 6 ≤ D)
    (hD' : D ≤ 3 / 25) (hs' : |Real.sin theta| + 2 * D ≤ 99998 / 100000) :
    ∃ s' v w, update gx gy gz ax ay az mx my mz s = (.ok (), s') ∧ getAttitude s' = .ok v ∧ Quat.conjugateNew v = .ok w ∧
      EulerNear w phi theta psi D := by
  have ha' : epsilon ℝ < norm3 a := lt_trans (by norm_num [epsilon]) alo
  have hm' : epsilon ℝ < norm3 m := lt_trans (by norm_num [epsilon]) mlo
  have a0 : 0 < norm3 a := Linalg.eps_pos.trans ha'
  have l00 : 0 < l := lt_of_lt_of_le (by norm_num) l0
  have ν0 : 0 ≤ ν := (norm3_nonneg _).trans hν
  have μ0 : 0 ≤ μ := (norm3_nonneg _).trans hμ
  obtain ⟨k, hk⟩ : ∃ k, k * norm3 a = a 0 * dir m 0 + a 1 * dir m 1 + a 2 * dir m 2 :=
    ⟨_, div_mul_cancel₀ _ a0.ne'⟩
  have hP : ‖star Q‖ = 1 := by rwa [norm_star]
  have seen : ∀ (v : Fin 3 → ℝ) {x y z : ℝ}, Q * mkQ 0 (v 0) (v 1) (v 2) * star Q = mkQ 0 x y z →
      unrot (star Q) v 0 = x ∧ unrot (star Q) v 1 = y ∧ unrot (star Q) v 2 = z := by
    intro v x y z hv
    have := unrot_eq hP v
    rw [star_star, show pureQ v = mkQ 0 (v 0) (v 1) (v 2) from rfl, hv] at this
    exact ⟨congrArg (fun q : Quaternion ℝ => q.imI) this, congrArg (fun q : Quaternion ℝ => q.imJ) this,
      congrArg (fun q : Quaternion ℝ => q.imK) this⟩
  have hkz : |k| ≤ |z| + (ν + μ) := by
    obtain ⟨g0, g1, g2⟩ := seen g hg
    obtain ⟨b0, b1, b2⟩ := seen b hb
    have nb : norm3 b = 1 := by
      rw [← unrot_norm (normSq_of_norm hP), norm3, b0, b1, b2, show x ^ 2 + 0 ^ 2 + z ^ 2 = 1 by linarith, Real.sqrt_one]
    have hgb : g 0 * b 0 + g 1 * b 1 + g 2 * b 2 = -z := by
      rw [← unrot_dot hP g b, g0, g1, g2, b0, b1, b2]
      ring
    have := dot3_near (dir_norm ha') nb hν hμ
    rw [hgb, abs_neg] at this
    refine le_trans (le_of_eq (congrArg _ ?_)) this
    have e : ∀ i, dir a i = a i / norm3 a := fun i => by unfold dir; rw [if_pos ha']
    rw [e, e, e]
    field_simp
    exact hk
  have hl1 : l ^ 2 + (|k| + 33 / 10 ^ 6) ^ 2 ≤ 1 := by
    have : (|k| + 33 / 10 ^ 6) ^ 2 ≤ (|z| + (33 / 10 ^ 6 + ν + μ)) ^ 2 := pow_le_pow_left₀ (by positivity) (by linarith) 2
    linarith
  have hl2 : l ^ 2 + (|z| + (33 / 10 ^ 6 + ν)) ^ 2 ≤ 1 := by
    have : (|z| + (33 / 10 ^ 6 + ν)) ^ 2 ≤ (|z| + (33 / 10 ^ 6 + ν + μ)) ^ 2 := pow_le_pow_left₀ (by positivity) (by linarith) 2
    linarith
  obtain ⟨s', eu, hA⟩ := C126_aligned hs hmode hc hd ra rm (gx := gx) (gy := gy) (gz := gz) ha hm alo ahi mlo mhi hk l0 hl1
  obtain ⟨v', w', k1⟩ := C125_noisy hQ hg hb x0 hxz ha' hm' hν hμ l00 (by norm_num) (by positivity) hk hl1 hl2 hS he hA e ht hD hD' hs'
  exact ⟨s', v', w', eu, k1⟩

end

/-! ### A case -/

/-- The arguments of `Aqua.plainF`. -/
noncomputable def amE : AquaInit F32E := (plainF .AM : AquaInit F32)

/-- The hypotheses of `C126_angles` hold for a filter that has been initialised, when the acceleration (0, 0, -1) and the field
(1596, 160, 1203) are read, the true field being along (4, 0, 3), and the true attitude the identity. -/
example : ∃ (s s' : Aqua F32E) (v w : Vec F32E), Started amE s ∧
    update none none none (lit 0) (lit 0) (lit (-1)) (lit 1596) (lit 160) (lit 1203) s = (.ok (), s') ∧
    getAttitude s' = .ok v ∧ Quat.conjugateNew v = .ok w ∧ EulerNear w 0 0 0 (7 / 100) := by
  obtain ⟨s0, e0, -⟩ := Aqua.new_fresh (F := F32E)
  have h := (C52_iff (a := amE) e0).mpr (by
    have k : AquaInit.Valid (F := F32) (plainF .AM) :=
      ⟨fun h => (by cases h), by decide +kernel, by decide +kernel, .inl ⟨rfl, rfl, rfl, rfl⟩⟩
    exact ⟨k.gyr, k.acc, k.mag, k.quat⟩)
  have hR : Aqua.Reachable s0 := ⟨s0, e0, .refl _⟩
  have hi : Aqua.init amE s0 = (.ok (), (Aqua.init amE s0).2) := Prod.ext h rfl
  have hs : Aqua.Started amE (Aqua.init amE s0).2 := ⟨s0, _, hR, hi, .refl _⟩
  obtain ⟨-, -, hc, hd⟩ := C52_attitude hR hi
  have hr := hs.ready.1
  generalize (Aqua.init amE s0).2 = s at *
  have ra : Accelerometer.Reads amE.accelerometerConfig (lit 0) (lit 0) (lit (-1)) (lit 0) (lit 0) (lit (-1)) := by
    have e : Accelerometer.update (lit 0) (lit 0) (lit (-1)) s.acc =
        (.ok (), (Accelerometer.update (lit 0) (lit 0) (lit (-1)) s.acc).2) :=
      Prod.ext ((C43_acc_iff hr.acc hc).mpr (by decide +kernel)) rfl
    obtain ⟨-, k1, k2, k3, -⟩ := C43_acc_formula hr.acc hc e
    have k : Accelerometer.corrX (F := F32) .default (lit 0) (lit 0) (lit (-1)) = lit 0 ∧
        Accelerometer.corrY (F := F32) .default (lit 0) (lit 0) (lit (-1)) = lit 0 ∧
        Accelerometer.corrZ (F := F32) .default (lit 0) (lit 0) (lit (-1)) = lit (-1) := by decide +kernel
    exact ⟨s.acc, _, hr.acc, hc, e, k1.trans (congrArg _ k.1), k2.trans (congrArg _ k.2.1), k3.trans (congrArg _ k.2.2)⟩
  have rm : Magnetometer.Reads amE.magnetometerConfig (lit 1596) (lit 160) (lit 1203) (lit 1596) (lit 160) (lit 1203) := by
    have e : Magnetometer.update (lit 1596) (lit 160) (lit 1203) s.mag =
        (.ok (), (Magnetometer.update (lit 1596) (lit 160) (lit 1203) s.mag).2) :=
      Prod.ext ((C43_mag_iff hr.mag hd).mpr (by decide +kernel)) rfl
    obtain ⟨-, k1, k2, k3, -⟩ := C43_mag_formula hr.mag hd e
    have k : Magnetometer.corrX (F := F32) .default (lit 1596) (lit 160) (lit 1203) = lit 1596 ∧
        Magnetometer.corrY (F := F32) .default (lit 1596) (lit 160) (lit 1203) = lit 160 ∧
        Magnetometer.corrZ (F := F32) .default (lit 1596) (lit 160) (lit 1203) = lit 1203 := by decide +kernel
    exact ⟨s.mag, _, hr.mag, hd, e, k1.trans (congrArg _ k.1), k2.trans (congrArg _ k.2.1), k3.trans (congrArg _ k.2.2)⟩
  have val : ∀ x : ℚ, F32.fl (Ext.fin x) = ⟨Ext.fin x⟩ → ⟪(lit x : F32E)⟫ = (x : ℝ) := fun x h => val_lit (k := x) h
  have v0 : ⟪(lit 0 : F32E)⟫ = 0 := Rounded.zero_val
  have v1 : ⟪(lit (-1) : F32E)⟫ = -1 := by simpa using val (-1) (by decide +kernel)
  have v2 : ⟪(lit 1596 : F32E)⟫ = 1596 := by simpa using val 1596 (by decide +kernel)
  have v3 : ⟪(lit 160 : F32E)⟫ = 160 := by simpa using val 160 (by decide +kernel)
  have v4 : ⟪(lit 1203 : F32E)⟫ = 1203 := by simpa using val 1203 (by decide +kernel)
  have n1 : ‖(1 : Quaternion ℝ)‖ = 1 := norm_one (map_one _)
  have na : norm3 ![0, 0, -1] = 1 := by
    show √((0 : ℝ) ^ 2 + 0 ^ 2 + (-1) ^ 2) = 1
    norm_num
  have nm : norm3 ![1596, 160, 1203] = 2005 := by
    show √((1596 : ℝ) ^ 2 + 160 ^ 2 + 1203 ^ 2) = 2005
    rw [show (1596 : ℝ) ^ 2 + 160 ^ 2 + 1203 ^ 2 = 2005 ^ 2 by norm_num, Real.sqrt_sq (by norm_num)]
  have heps : epsilon ℝ < 1 := by norm_num [epsilon]
  have da : dir ![0, 0, -1] = ![0, 0, -1] := by
    funext i
    unfold dir
    rw [if_pos (by rw [na]; exact heps), na, div_one]
  have dm : dir ![1596, 160, 1203] = offField := by
    funext i
    unfold dir
    rw [if_pos (by rw [nm]; linarith), nm]
    fin_cases i <;> rfl
  have hz : norm3 ((![0, 0, -1] : Fin 3 → ℝ) - dir ![0, 0, -1]) ≤ 0 := by
    rw [da, sub_self]
    show √((0 : ℝ) ^ 2 + 0 ^ 2 + 0 ^ 2) ≤ 0
    norm_num
  have hμ : norm3 ((![4 / 5, 0, 3 / 5] : Fin 3 → ℝ) - dir ![1596, 160, 1203]) ≤ 8 / 100 := by
    rw [dm]
    show √((4 / 5 - 1596 / 2005 : ℝ) ^ 2 + (0 - 160 / 2005) ^ 2 + (3 / 5 - 1203 / 2005) ^ 2) ≤ 8 / 100
    exact Real.sqrt_le_iff.mpr ⟨by norm_num, by norm_num⟩
  have he : toMatrix 3 3 (dcmOf (1 : Quaternion ℝ)) = rotZ 0 * rotY 0 * rotX 0 := by
    ext i j
    fin_cases i <;> fin_cases j <;>
      simp [toMatrix, dcmOf, tbl, Quaternion.re_one, Quaternion.imI_one, Quaternion.imJ_one, Quaternion.imK_one, rotZ, rotY, rotX, Matrix.mul_apply, Fin.sum_univ_three]
  obtain ⟨s', v, w, k⟩ := C126_angles hs rfl hc hd ra rm (gx := none) (gy := none) (gz := none) (a := ![0, 0, -1]) (m := ![1596, 160, 1203])
    (g := ![0, 0, -1]) (b := ![4 / 5, 0, 3 / 5]) (x := 4 / 5) (z := 3 / 5) (l := 7 / 10) (ν := 0) (μ := 8 / 100) (D := 7 / 100)
    (by rw [v0, v1]) (by rw [v2, v3, v4]) (by rw [na]; norm_num) (by rw [na]; norm_num) (by rw [nm]; norm_num) (by rw [nm]; norm_num) n1
    (by rw [star_one, mul_one, one_mul]; rfl) (by rw [star_one, mul_one, one_mul]; rfl) (by norm_num) (by norm_num)
    hz hμ (by norm_num) (by norm_num [abs_of_pos]) (by norm_num [abs_of_pos]) (by norm_num) he
    (by rw [abs_zero]; positivity) (by norm_num [abs_of_pos]) (by norm_num) (by norm_num)
  exact ⟨s, s', v, w, hs, k⟩

end Aqua
end Verif
