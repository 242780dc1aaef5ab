import Verif.Props.ArMotion
import Verif.Props.RoundedEulerCases

/-
The Euler angles that are read from the AR filter (C124): how far `convert_to_euler` of the attitude is from the angles
of the true motion.
-/

set_option linter.unusedSectionVars false

namespace Verif
open Scalar Finset

/-! ### Angles of nearby attitudes -/

/-- Two vectors of the plane, of lengths `c` and `c'` and at most `d` apart, have directions that differ by little. -/
theorem angle_near {c c' d φ φ' : ℝ} (hc : 0 < c) (hc' : c / 2 ≤ c')
    (h : (c' * Real.cos φ' - c * Real.cos φ) ^ 2 + (c' * Real.sin φ' - c * Real.sin φ) ^ 2 ≤ d ^ 2) (hd : 0 ≤ d) :
    ∃ k : ℤ, |φ' - φ - k * (2 * Real.pi)| ≤ 2223 / 1000 * d / c := by
  obtain ⟨k, hk⟩ : ∃ k : ℤ, |φ' - φ - k * (2 * Real.pi)| ≤ Real.pi := by
    have hp := Real.pi_pos
    refine ⟨round ((φ' - φ) / (2 * Real.pi)), ?_⟩
    have := abs_sub_round ((φ' - φ) / (2 * Real.pi))
    have e : φ' - φ - round ((φ' - φ) / (2 * Real.pi)) * (2 * Real.pi) =
        ((φ' - φ) / (2 * Real.pi) - round ((φ' - φ) / (2 * Real.pi))) * (2 * Real.pi) := by
      field_simp
    rw [e, abs_mul, abs_of_pos (show 0 < 2 * Real.pi by positivity)]
    nlinarith
  refine ⟨k, ?_⟩
  set x := φ' - φ - k * (2 * Real.pi) with hx
  have hcos : Real.cos x = Real.cos (φ' - φ) := by
    rw [hx]; exact Real.cos_sub_int_mul_two_pi _ _
  have hp := Real.pi_pos
  -- the chord
  have e1 : (c' * Real.cos φ' - c * Real.cos φ) ^ 2 + (c' * Real.sin φ' - c * Real.sin φ) ^ 2 =
      (c' - c) ^ 2 + 4 * (c' * c) * Real.sin (x / 2) ^ 2 := by
    have s2 : Real.cos x = 1 - 2 * Real.sin (x / 2) ^ 2 := by
      have h1 := Real.cos_two_mul (x / 2)
      have h2 := Real.sin_sq_add_cos_sq (x / 2)
      rw [show 2 * (x / 2) = x by ring] at h1
      linarith
    rw [hcos, Real.cos_sub] at s2
    have h1 := Real.sin_sq_add_cos_sq φ
    have h2 := Real.sin_sq_add_cos_sq φ'
    linear_combination c ^ 2 * h1 + c' ^ 2 * h2 - 2 * (c' * c) * s2
  rw [e1] at h
  have hx2 : |x / 2| ≤ Real.pi / 2 := by
    rw [abs_div, abs_two]; linarith
  have jordan : 2 / Real.pi * |x / 2| ≤ |Real.sin (x / 2)| := Real.mul_abs_le_abs_sin hx2
  have j2 : (2 / Real.pi * |x / 2|) ^ 2 ≤ Real.sin (x / 2) ^ 2 := by
    rw [← sq_abs (Real.sin (x / 2))]
    exact pow_le_pow_left₀ (by positivity) jordan 2
  have e2 : (2 / Real.pi * |x / 2|) ^ 2 = (|x| / Real.pi) ^ 2 := by
    rw [abs_div, abs_two]
    congr 1
    field_simp
  rw [e2] at j2
  have hcc : c ^ 2 / 2 ≤ c' * c := by nlinarith
  have h3 : 2 * (c * (|x| / Real.pi)) ^ 2 ≤ d ^ 2 := by
    have : 0 ≤ (|x| / Real.pi) ^ 2 := by positivity
    have h4 : 4 * (c ^ 2 / 2) * (|x| / Real.pi) ^ 2 ≤ 4 * (c' * c) * Real.sin (x / 2) ^ 2 := by
      have h5 : 0 ≤ c' * c := by nlinarith
      gcongr
    nlinarith [sq_nonneg (c' - c)]
  have h6 : c * (|x| / Real.pi) ≤ 70711 / 100000 * d := by
    refine abs_le_of_sq_le_sq' ?_ (by positivity) |>.2
    nlinarith [sq_nonneg d]
  rw [le_div_iff₀ hc]
  have hpi := Real.pi_lt_d4
  have e3 : |x| * c = Real.pi * (c * (|x| / Real.pi)) := by field_simp
  rw [e3]
  calc Real.pi * (c * (|x| / Real.pi)) ≤ Real.pi * (70711 / 100000 * d) := by gcongr
    _ ≤ 3.1416 * (70711 / 100000 * d) := by gcongr
    _ ≤ 2223 / 1000 * d := by norm_num; linarith

/-- The last row of the matrix of a unit quaternion is where the third axis goes under the inverse. -/
theorem dcm_row {q : Quaternion ℝ} (hq : ‖q‖ = 1) :
    star q * mkQ 0 0 0 1 * q = mkQ 0 (dcmOf q 2 0) (dcmOf q 2 1) (dcmOf q 2 2) := by
  have h : q.re ^ 2 + q.imI ^ 2 + q.imJ ^ 2 + q.imK ^ 2 = 1 := by
    have := Quaternion.normSq_eq_norm_mul_self q
    rw [hq, Quaternion.normSq_def'] at this
    linarith
  have k0 : (mkQ (0 : ℝ) 0 0 1).re = 0 := rfl
  have k1 : (mkQ (0 : ℝ) 0 0 1).imI = 0 := rfl
  have k2 : (mkQ (0 : ℝ) 0 0 1).imJ = 0 := rfl
  have k3 : (mkQ (0 : ℝ) 0 0 1).imK = 1 := rfl
  ext
  · rw [show (mkQ 0 (dcmOf q 2 0) (dcmOf q 2 1) (dcmOf q 2 2)).re = 0 from rfl]
    simp only [Quaternion.re_mul, Quaternion.imI_mul, Quaternion.imJ_mul, Quaternion.imK_mul, Quaternion.re_star,
      Quaternion.imI_star, Quaternion.imJ_star, Quaternion.imK_star, k0, k1, k2, k3]
    ring
  · rw [show (mkQ 0 (dcmOf q 2 0) (dcmOf q 2 1) (dcmOf q 2 2)).imI = 2 * (q.imI * q.imK - q.re * q.imJ) from rfl]
    simp only [Quaternion.re_mul, Quaternion.imI_mul, Quaternion.imJ_mul, Quaternion.imK_mul, Quaternion.re_star,
      Quaternion.imI_star, Quaternion.imJ_star, Quaternion.imK_star, k0, k1, k2, k3]
    ring
  · rw [show (mkQ 0 (dcmOf q 2 0) (dcmOf q 2 1) (dcmOf q 2 2)).imJ = 2 * (q.re * q.imI + q.imJ * q.imK) from rfl]
    simp only [Quaternion.re_mul, Quaternion.imI_mul, Quaternion.imJ_mul, Quaternion.imK_mul, Quaternion.re_star,
      Quaternion.imI_star, Quaternion.imJ_star, Quaternion.imK_star, k0, k1, k2, k3]
    ring
  · rw [show (mkQ 0 (dcmOf q 2 0) (dcmOf q 2 1) (dcmOf q 2 2)).imK = 1 - 2 * (q.imI * q.imI + q.imJ * q.imJ) from rfl]
    simp only [Quaternion.re_mul, Quaternion.imI_mul, Quaternion.imJ_mul, Quaternion.imK_mul, Quaternion.re_star,
      Quaternion.imI_star, Quaternion.imJ_star, Quaternion.imK_star, k0, k1, k2, k3]
    linear_combination h

/-- The first column is where the first axis goes. -/
theorem dcm_col (q : Quaternion ℝ) :
    q * mkQ 0 1 0 0 * star q = mkQ 0 (dcmOf q 0 0) (dcmOf q 1 0) (dcmOf q 2 0) := by
  have k0 : (mkQ (0 : ℝ) 1 0 0).re = 0 := rfl
  have k1 : (mkQ (0 : ℝ) 1 0 0).imI = 1 := rfl
  have k2 : (mkQ (0 : ℝ) 1 0 0).imJ = 0 := rfl
  have k3 : (mkQ (0 : ℝ) 1 0 0).imK = 0 := rfl
  ext
  · rw [show (mkQ 0 (dcmOf q 0 0) (dcmOf q 1 0) (dcmOf q 2 0)).re = 0 from rfl]
    simp only [Quaternion.re_mul, Quaternion.imI_mul, Quaternion.imJ_mul, Quaternion.imK_mul, Quaternion.re_star,
      Quaternion.imI_star, Quaternion.imJ_star, Quaternion.imK_star, k0, k1, k2, k3]
    ring
  · rw [show (mkQ 0 (dcmOf q 0 0) (dcmOf q 1 0) (dcmOf q 2 0)).imI = q.re * q.re + q.imI * q.imI - q.imJ * q.imJ - q.imK * q.imK from rfl]
    simp only [Quaternion.re_mul, Quaternion.imI_mul, Quaternion.imJ_mul, Quaternion.imK_mul, Quaternion.re_star,
      Quaternion.imI_star, Quaternion.imJ_star, Quaternion.imK_star, k0, k1, k2, k3]
    ring
  · rw [show (mkQ 0 (dcmOf q 0 0) (dcmOf q 1 0) (dcmOf q 2 0)).imJ = 2 * (q.imI * q.imJ + q.re * q.imK) from rfl]
    simp only [Quaternion.re_mul, Quaternion.imI_mul, Quaternion.imJ_mul, Quaternion.imK_mul, Quaternion.re_star,
      Quaternion.imI_star, Quaternion.imJ_star, Quaternion.imK_star, k0, k1, k2, k3]
    ring
  · rw [show (mkQ 0 (dcmOf q 0 0) (dcmOf q 1 0) (dcmOf q 2 0)).imK = 2 * (q.imI * q.imK - q.re * q.imJ) from rfl]
    simp only [Quaternion.re_mul, Quaternion.imI_mul, Quaternion.imJ_mul, Quaternion.imK_mul, Quaternion.re_star,
      Quaternion.imI_star, Quaternion.imJ_star, Quaternion.imK_star, k0, k1, k2, k3]
    ring

theorem mkQ_scale (k a b c d : ℝ) : k • mkQ a b c d = mkQ (k * a) (k * b) (k * c) (k * d) := rfl

theorem mkQ_sub (a b c d a' b' c' d' : ℝ) : mkQ a b c d - mkQ a' b' c' d' = mkQ (a - a') (b - b') (c - c') (d - d') := rfl

theorem conj_near {p q u : Quaternion ℝ} (hp : ‖p‖ = 1) (hq : ‖q‖ = 1) (hu : ‖u‖ = 1) :
    ‖p * u * star p - q * u * star q‖ ≤ 2 * ‖p - q‖ := by
  have e : p * u * star p - q * u * star q = p * u * star (p - q) + (p - q) * u * star q := by
    rw [star_sub]; noncomm_ring
  rw [e]
  refine (norm_add_le _ _).trans ?_
  rw [norm_mul, norm_mul, norm_mul, norm_mul, norm_star, norm_star, hp, hq, hu]
  linarith

theorem sq_of_norm {x y z d : ℝ} (h : ‖mkQ 0 x y z‖ ≤ d) : x ^ 2 + y ^ 2 + z ^ 2 ≤ d ^ 2 := by
  have := pow_le_pow_left₀ (norm_nonneg _) h 2
  rw [norm_mkQ, Real.sq_sqrt (by positivity)] at this
  linarith

/-- The entries of a product of elementary rotations. -/
theorem euler_entries {D : Nat → Nat → ℝ} {phi theta psi : ℝ} (h : toMatrix 3 3 D = rotZ psi * rotY theta * rotX phi) :
    D 2 0 = -Real.sin theta ∧ D 2 1 = Real.cos theta * Real.sin phi ∧ D 2 2 = Real.cos theta * Real.cos phi ∧
      D 0 0 = Real.cos theta * Real.cos psi ∧ D 1 0 = Real.cos theta * Real.sin psi := by
  have e := fun i j => congrFun (congrFun h i) j
  have e20 := e 2 0
  have e21 := e 2 1
  have e22 := e 2 2
  have e00 := e 0 0
  have e10 := e 1 0
  simp [toMatrix, rotZ, rotY, rotX, Matrix.mul_apply, Fin.sum_univ_three] at e20 e21 e22 e00 e10
  exact ⟨e20, e21, e22, by rw [e00]; ring, by rw [e10]; ring⟩

/-- The angles of two attitudes at a distance of at most `δ`. -/
theorem euler_near {p q : Quaternion ℝ} (hp : ‖p‖ = 1) (hq : ‖q‖ = 1) {δ : ℝ} (h : ‖p - q‖ ≤ δ)
    {phi theta psi phi' theta' psi' : ℝ} (e : toMatrix 3 3 (dcmOf q) = rotZ psi * rotY theta * rotX phi)
    (e' : toMatrix 3 3 (dcmOf p) = rotZ psi' * rotY theta' * rotX phi') (ht : |theta| ≤ Real.pi / 2)
    (ht' : |theta'| ≤ Real.pi / 2) (hδ : 4 * δ ≤ Real.cos theta) (hc : 0 < Real.cos theta) (hc' : 0 < Real.cos theta') :
    Real.cos theta / 2 ≤ Real.cos theta' ∧ |theta' - theta| ≤ 3142 / 1000 * δ ∧
      (∃ k : ℤ, |phi' - phi - k * (2 * Real.pi)| ≤ 4446 / 1000 * δ / Real.cos theta) ∧
      ∃ k : ℤ, |psi' - psi - k * (2 * Real.pi)| ≤ 4446 / 1000 * δ / Real.cos theta := by
  have d0 : 0 ≤ δ := (norm_nonneg _).trans h
  have hk : ‖mkQ (0 : ℝ) 0 0 1‖ = 1 := by rw [norm_mkQ]; norm_num
  have hi : ‖mkQ (0 : ℝ) 1 0 0‖ = 1 := by rw [norm_mkQ]; norm_num
  have r := conj_near (p := star p) (q := star q) (by rwa [norm_star]) (by rwa [norm_star]) hk
  rw [star_star, star_star, dcm_row hp, dcm_row hq, ← star_sub, norm_star, mkQ_sub, sub_zero] at r
  have c := conj_near hp hq hi
  rw [dcm_col, dcm_col, mkQ_sub, sub_zero] at c
  have r2 := sq_of_norm (r.trans (mul_le_mul_of_nonneg_left h zero_le_two))
  have c2 := sq_of_norm (c.trans (mul_le_mul_of_nonneg_left h zero_le_two))
  obtain ⟨a1, a2, a3, a4, a5⟩ := euler_entries e
  obtain ⟨b1, b2, b3, b4, b5⟩ := euler_entries e'
  rw [a1, a2, a3, b1, b2, b3] at r2
  rw [a1, a4, a5, b1, b4, b5] at c2
  clear e e' a1 a2 a3 a4 a5 b1 b2 b3 b4 b5 r c h hp hq hk hi
  have r3 : (Real.cos theta' * Real.cos phi' - Real.cos theta * Real.cos phi) ^ 2 +
      (Real.cos theta' * Real.sin phi' - Real.cos theta * Real.sin phi) ^ 2 +
      (Real.sin theta' - Real.sin theta) ^ 2 ≤ (2 * δ) ^ 2 := by nlinarith
  have c3 : (Real.cos theta' * Real.cos psi' - Real.cos theta * Real.cos psi) ^ 2 +
      (Real.cos theta' * Real.sin psi' - Real.cos theta * Real.sin psi) ^ 2 ≤ (2 * δ) ^ 2 := by
    nlinarith [sq_nonneg (-Real.sin theta' - -Real.sin theta)]
  -- the cosines
  have len : (Real.cos theta' - Real.cos theta) ^ 2 ≤ (Real.cos theta' * Real.cos phi' - Real.cos theta * Real.cos phi) ^ 2 +
      (Real.cos theta' * Real.sin phi' - Real.cos theta * Real.sin phi) ^ 2 := by
    have h1 := Real.sin_sq_add_cos_sq phi
    have h2 := Real.sin_sq_add_cos_sq phi'
    have h3 : Real.cos phi' * Real.cos phi + Real.sin phi' * Real.sin phi ≤ 1 := by
      rw [← Real.cos_sub]; exact Real.cos_le_one _
    have h4 : 0 ≤ Real.cos theta' * Real.cos theta := by positivity
    have h5 := mul_le_mul_of_nonneg_left h3 h4
    have e : (Real.cos theta' * Real.cos phi' - Real.cos theta * Real.cos phi) ^ 2 +
      (Real.cos theta' * Real.sin phi' - Real.cos theta * Real.sin phi) ^ 2 =
      Real.cos theta' ^ 2 + Real.cos theta ^ 2 -
        2 * (Real.cos theta' * Real.cos theta * (Real.cos phi' * Real.cos phi + Real.sin phi' * Real.sin phi)) := by
      linear_combination Real.cos theta' ^ 2 * h2 + Real.cos theta ^ 2 * h1
    rw [e]
    nlinarith
  have hcc : Real.cos theta / 2 ≤ Real.cos theta' := by
    have : (Real.cos theta' - Real.cos theta) ^ 2 ≤ (2 * δ) ^ 2 := by nlinarith [sq_nonneg (Real.sin theta' - Real.sin theta)]
    have := (abs_le_of_sq_le_sq' this (by positivity)).1
    linarith
  refine ⟨hcc, ?_, ?_, ?_⟩
  · have ch : (Real.cos theta' - Real.cos theta) ^ 2 + (Real.sin theta' - Real.sin theta) ^ 2 ≤ (2 * δ) ^ 2 := by linarith
    have s2 : Real.cos (theta' - theta) = 1 - 2 * Real.sin ((theta' - theta) / 2) ^ 2 := by
      have h1 := Real.cos_two_mul ((theta' - theta) / 2)
      have h2 := Real.sin_sq_add_cos_sq ((theta' - theta) / 2)
      rw [show 2 * ((theta' - theta) / 2) = theta' - theta by ring] at h1
      linarith
    rw [Real.cos_sub] at s2
    have h1 := Real.sin_sq_add_cos_sq theta
    have h2 := Real.sin_sq_add_cos_sq theta'
    have h3 : Real.sin ((theta' - theta) / 2) ^ 2 ≤ δ ^ 2 := by nlinarith
    have h4 : |Real.sin ((theta' - theta) / 2)| ≤ δ := abs_le_of_sq_le_sq h3 d0
    have h5 : |(theta' - theta) / 2| ≤ Real.pi / 2 := by
      rw [abs_le] at ht ht' ⊢
      constructor <;> linarith
    have h6 := (Real.mul_abs_le_abs_sin h5).trans h4
    have hp := Real.pi_pos
    rw [abs_div, abs_two, show 2 / Real.pi * (|theta' - theta| / 2) = |theta' - theta| / Real.pi by field_simp,
      div_le_iff₀ hp] at h6
    have := Real.pi_lt_d4
    nlinarith
  · obtain ⟨k, hk⟩ := angle_near hc hcc (by nlinarith [sq_nonneg (Real.sin theta' - Real.sin theta)] :
      (Real.cos theta' * Real.cos phi' - Real.cos theta * Real.cos phi) ^ 2 +
      (Real.cos theta' * Real.sin phi' - Real.cos theta * Real.sin phi) ^ 2 ≤ (2 * δ) ^ 2) (by positivity)
    refine ⟨k, hk.trans (le_of_eq ?_)⟩
    ring
  · obtain ⟨k, hk⟩ := angle_near hc hcc c3 (by positivity)
    refine ⟨k, hk.trans (le_of_eq ?_)⟩
    ring

variable {F : Type} [Scalar F] [Rounded F]

/-- The angles that `convert_to_euler` returns for the quaternion `a` are numbers near the given roll, pitch and yaw: `δ` is
the distance of the attitude, which the pitch magnifies. -/
def EulerNear (a : Vec F) (phi theta psi δ : ℝ) : Prop :=
  ∃ x y z : F, Quat.convertToEuler a = .ok (x, y, z) ∧ Finite x ∧ Finite y ∧ Finite z ∧
    (∃ k : ℤ, |⟪x⟫ - phi - k * (2 * Real.pi)| ≤ (35 / 10 ^ 6 + 445 / 100 * δ) / Real.cos theta) ∧
    |⟪y⟫ - theta| ≤ 34 / 10 ^ 6 / Real.cos theta + 315 / 100 * δ ∧
    ∃ k : ℤ, |⟪z⟫ - psi - k * (2 * Real.pi)| ≤ (35 / 10 ^ 6 + 445 / 100 * δ) / Real.cos theta

/-- The room that a pitch away from the vertical leaves. -/
theorem pitch_room {c s δ : ℝ} (h : s ^ 2 + c ^ 2 = 1) (hc : 0 ≤ c) (d0 : 0 ≤ δ) (hδ : δ ≤ 3 / 25)
    (hg : |s| + 2 * δ ≤ 99998 / 100000) : 4 * (δ + 1 / 10 ^ 6) ≤ c ∧ 0 < c := by
  have h1 : (4 * (δ + 1 / 10 ^ 6)) ^ 2 ≤ c ^ 2 := by
    have s0 := abs_nonneg s
    have h2 : 2 / 100000 + 2 * δ ≤ c ^ 2 := by
      have : s ^ 2 = |s| ^ 2 := (sq_abs s).symm
      nlinarith
    have h3 : δ * δ ≤ 3 / 25 * δ := by gcongr
    norm_num at h2 hδ h3 ⊢
    nlinarith
  have h4 := (abs_le_of_sq_le_sq' h1 hc).2
  exact ⟨h4, lt_of_lt_of_le (by positivity) h4⟩

/-- C124: the angles that `convert_to_euler` reads from a quaternion near a true attitude `Q` are near the roll, the pitch
and the yaw of `Q`: how much the distance is magnified depends on the pitch. -/
theorem C124_angles [A : Arcs F] {a : Vec F} {f : Nat → F} (ha : VecIs a 4 f) (hf : ∀ i, i < 4 → Finite (f i)) (hn : NearUnit f)
    {Q : Quaternion ℝ} (hQ : ‖Q‖ = 1) {δ : ℝ} (hd : ‖qval f - Q‖ ≤ δ) {phi theta psi : ℝ}
    (e : toMatrix 3 3 (dcmOf Q) = rotZ psi * rotY theta * rotX phi) (ht : |theta| ≤ Real.pi / 2) (hδ : δ ≤ 3 / 25)
    (hg : |Real.sin theta| + 2 * δ ≤ 99998 / 100000) :
    EulerNear a phi theta psi δ := by
  have d0 : 0 ≤ δ := (norm_nonneg _).trans hd
  have hn' : |‖qval f‖ - 1| ≤ 1 / 10 ^ 6 := hn
  have n0 : 0 < ‖qval f‖ := by have := (abs_le.mp hn').1; norm_num at this; linarith
  set p := ‖qval f‖⁻¹ • qval f with hp
  have hp1 : ‖p‖ = 1 := by rw [hp, norm_smul, norm_inv, norm_norm, inv_mul_cancel₀ n0.ne']
  have hq : qval f = ‖qval f‖ • p := by rw [hp, smul_inv_smul₀ n0.ne']
  have hpQ : ‖p - Q‖ ≤ δ + 1 / 10 ^ 6 := by
    have e1 : p - Q = (1 - ‖qval f‖) • p + (qval f - Q) := by
      conv_rhs => rw [hq]
      rw [norm_smul, hp1, norm_norm, mul_one, sub_smul, one_smul]
      abel
    rw [e1]
    refine (norm_add_le _ _).trans ?_
    rw [norm_smul, hp1, mul_one, Real.norm_eq_abs, abs_sub_comm]
    linarith
  have hc0 : 0 ≤ Real.cos theta := Real.cos_nonneg_of_mem_Icc ⟨by linarith [(abs_le.mp ht).1], (abs_le.mp ht).2⟩
  obtain ⟨room, c0⟩ := pitch_room (Real.sin_sq_add_cos_sq theta) hc0 d0 hδ hg
  -- the computed sine of the pitch
  have hB : |2 * (⟪f 0⟫ * ⟪f 2⟫ - ⟪f 3⟫ * ⟪f 1⟫)| ≤ 99999 / 100000 := by
    have hk : ‖mkQ (0 : ℝ) 0 0 1‖ = 1 := by rw [norm_mkQ]; norm_num
    have r := conj_near (p := star p) (q := star Q) (by rwa [norm_star]) (by rwa [norm_star]) hk
    rw [star_star, star_star, dcm_row hp1, dcm_row hQ, ← star_sub, norm_star, mkQ_sub, sub_zero] at r
    have r2 := sq_of_norm (r.trans (mul_le_mul_of_nonneg_left hpQ zero_le_two))
    have r3 : |dcmOf p 2 0 - dcmOf Q 2 0| ≤ 2 * (δ + 1 / 10 ^ 6) :=
      abs_le_of_sq_le_sq (by nlinarith [sq_nonneg (dcmOf p 2 1 - dcmOf Q 2 1), sq_nonneg (dcmOf p 2 2 - dcmOf Q 2 2)]) (by positivity)
    rw [(euler_entries e).1] at r3
    have e2 : 2 * (⟪f 0⟫ * ⟪f 2⟫ - ⟪f 3⟫ * ⟪f 1⟫) = -(‖qval f‖ ^ 2 * dcmOf p 2 0) := by
      have g0 : ⟪f 0⟫ = ‖qval f‖ * p.re := congrArg (fun r : Quaternion ℝ => r.re) hq
      have g1 : ⟪f 1⟫ = ‖qval f‖ * p.imI := congrArg (fun r : Quaternion ℝ => r.imI) hq
      have g2 : ⟪f 2⟫ = ‖qval f‖ * p.imJ := congrArg (fun r : Quaternion ℝ => r.imJ) hq
      have g3 : ⟪f 3⟫ = ‖qval f‖ * p.imK := congrArg (fun r : Quaternion ℝ => r.imK) hq
      rw [show dcmOf p 2 0 = 2 * (p.imI * p.imK - p.re * p.imJ) from rfl, g0, g1, g2, g3]
      ring
    rw [e2, abs_neg, abs_mul, abs_of_nonneg (by positivity : (0 : ℝ) ≤ ‖qval f‖ ^ 2)]
    have r4 : |dcmOf p 2 0| ≤ |Real.sin theta| + 2 * (δ + 1 / 10 ^ 6) := by
      have := abs_sub_abs_le_abs_sub (dcmOf p 2 0) (-Real.sin theta)
      rw [abs_neg] at this
      linarith
    have r5 : |dcmOf p 2 0| ≤ 999982 / 10 ^ 6 := by norm_num at r4 hg ⊢; linarith
    have r6 : ‖qval f‖ ^ 2 ≤ 1000003 / 10 ^ 6 := by
      have := (abs_le.mp hn').2
      norm_num at this ⊢
      nlinarith
    calc ‖qval f‖ ^ 2 * |dcmOf p 2 0| ≤ 1000003 / 10 ^ 6 * (999982 / 10 ^ 6) := by gcongr
      _ ≤ _ := by norm_num
  obtain ⟨x, y, z, phi', theta', psi', k0, k1, k2, k3, k4, k5, k6, k7, k8, k9⟩ := C104_euler ha hf hn hB
  have c1 : 0 < Real.cos theta' := lt_of_lt_of_le (by norm_num) k5
  obtain ⟨m1, m2, ⟨k, m3⟩, k', m4⟩ := euler_near hp1 hQ hpQ e k4 ht k6 room c0 c1
  have half : 15 / 10 ^ 6 / Real.cos theta' ≤ 30 / 10 ^ 6 / Real.cos theta := by
    rw [div_le_div_iff₀ c1 c0]
    norm_num
    linarith
  have one : 1 / 10 ^ 6 ≤ 1 / 10 ^ 6 / Real.cos theta := by
    rw [le_div_iff₀ c0]
    have := Real.cos_le_one theta
    norm_num
    linarith
  clear hB room e k4 hpQ hp1 hq hp hd
  have wide : 30 / 10 ^ 6 / Real.cos theta + 4446 / 1000 * (δ + 1 / 10 ^ 6) / Real.cos theta ≤
      (35 / 10 ^ 6 + 445 / 100 * δ) / Real.cos theta := by
    rw [← add_div]
    refine div_le_div_of_nonneg_right ?_ c0.le
    norm_num
    linarith
  refine ⟨x, y, z, k0, k1, k2, k3, ⟨k, ?_⟩, ?_, k', ?_⟩
  · have e3 : ⟪x⟫ - phi - k * (2 * Real.pi) = (⟪x⟫ - phi') + (phi' - phi - k * (2 * Real.pi)) := by ring
    rw [e3]
    exact (abs_add_le _ _).trans ((add_le_add (k7.trans half) m3).trans wide)
  · have e3 : ⟪y⟫ - theta = (⟪y⟫ - theta') + (theta' - theta) := by ring
    rw [e3]
    refine (abs_add_le _ _).trans ((add_le_add (k8.trans half) m2).trans ?_)
    have e4 : 34 / 10 ^ 6 / Real.cos theta = 30 / 10 ^ 6 / Real.cos theta + 4 * (1 / 10 ^ 6 / Real.cos theta) := by ring
    rw [e4]
    linarith
  · have e3 : ⟪z⟫ - psi - k' * (2 * Real.pi) = (⟪z⟫ - psi') + (psi' - psi - k' * (2 * Real.pi)) := by ring
    rw [e3]
    exact (abs_add_le _ _).trans ((add_le_add (k9.trans half) m4).trans wide)

namespace AR
variable {q ω : ℝ → Quaternion ℝ} {L : ℝ} {s : AR F} {a : ARInit F} {η : ℝ}

/-- The angles read from a filter whose attitude is near a true one. -/
theorem ShowsF.angles [Arcs F] {Q : Quaternion ℝ} {δ : ℝ} (h : ShowsF s fun f => NearUnit f ∧ ‖qval f - Q‖ ≤ δ)
    (hQ : ‖Q‖ = 1) {phi theta psi : ℝ} (e : toMatrix 3 3 (dcmOf Q) = rotZ psi * rotY theta * rotX phi)
    (ht : |theta| ≤ Real.pi / 2) (hδ : δ ≤ 3 / 25) (hg : |Real.sin theta| + 2 * δ ≤ 99998 / 100000) :
    ∃ v, getAttitude s = .ok v ∧ EulerNear v phi theta psi δ := by
  obtain ⟨v, f, h1, h2, h3, h4, h5⟩ := h
  exact ⟨v, h1, C124_angles h2 h3 h4 hQ h5 e ht hδ hg⟩

/-- C124: the roll, pitch and yaw read from an AR filter that follows a motion with the closed form, in binary32: `δ` is
the bound of C115 for the attitude. -/
theorem C124_closed [Trig F] [Arcs F] (h : Motion q ω L) (hs : Started a s) (hm : a.method = .ClosedForm) (hts : Finite a.ts) {B C : ℝ}
    (hC : a.config.UpTo C) (h1 : B ≤ 2 ^ 126) (h2 : C ≤ 2 ^ 98) (h3 : C * B ≤ 2 ^ 60) (h4 : C * B * ⟪a.ts⟫ ≤ 300)
    (h0 : 0 ≤ ⟪a.ts⟫) (h5 : ⟪a.ts⟫ ≤ 10 ^ 6) {E t : ℝ}
    (hA : ShowsF s fun f => NearUnit f ∧ ‖qval f - q t‖ ≤ E) (l : List (F × F × F))
    (hB : ∀ x ∈ l, a.config.Within B x)
    (hl : ∀ k, (hk : k < l.length) → ∃ u ∈ Set.Icc (t + k * ⟪a.ts⟫) (t + (k + 1) * ⟪a.ts⟫), ‖a.config.rateOf l[k] - ω u‖ ≤ η)
    {phi theta psi δ : ℝ} (e : toMatrix 3 3 (dcmOf (q (t + l.length * ⟪a.ts⟫))) = rotZ psi * rotY theta * rotX phi)
    (ht : |theta| ≤ Real.pi / 2)
    (hd : E + l.length * (L * ⟪a.ts⟫ ^ 2 / 4 + η * ⟪a.ts⟫ / 2 + (15 / 10 ^ 6 + 51 / 10 ^ 6 * ⟪a.ts⟫ + 20 / 10 ^ 6 * (C * B * ⟪a.ts⟫))) ≤ δ)
    (hδ : δ ≤ 3 / 25) (hg : |Real.sin theta| + 2 * δ ≤ 99998 / 100000) :
    ∃ s' v, feed l s = (.ok (), s') ∧ getAttitude s' = .ok v ∧ EulerNear v phi theta psi δ := by
  obtain ⟨s', k1, v, f, a1, a2, a3, a4, a5⟩ := C115_closedF h hs hm hts hC h1 h2 h3 h4 h0 h5 hA l hB hl
  exact ⟨s', v, k1, a1, C124_angles a2 a3 a4 (h.norm _) (a5.trans hd) e ht hδ hg⟩

/-- C124: and with the Taylor series. -/
theorem C124_taylor [Powers F] [Literals F] [Halves F] [Arcs F] (h : Motion q ω L) (hs : Started a s) (hm : a.method = .TaylorSeries)
    (ho1 : 1 ≤ a.order) (ho : a.order ≤ 20) (hts : Finite a.ts) {B C b : ℝ}
    (hC : a.config.UpTo C) (h1 : B ≤ 2 ^ 126) (h2 : C ≤ 2 ^ 98) (h3 : C * B ≤ 2 ^ 60) (h4 : C * B * ⟪a.ts⟫ ≤ 100)
    (h0 : 0 ≤ ⟪a.ts⟫) (h5 : ⟪a.ts⟫ ≤ 10 ^ 6) (hb : b ≤ 49 / 100) {E t : ℝ}
    (hA : ShowsF s fun f => NearUnit f ∧ ‖qval f - q t‖ ≤ E) (l : List (F × F × F))
    (hB : ∀ x ∈ l, a.config.Within B x ∧ ‖(⟪a.ts⟫ / 2) • a.config.rateOf x‖ ≤ b)
    (hl : ∀ k, (hk : k < l.length) → ∃ u ∈ Set.Icc (t + k * ⟪a.ts⟫) (t + (k + 1) * ⟪a.ts⟫), ‖a.config.rateOf l[k] - ω u‖ ≤ η)
    {phi theta psi δ : ℝ} (e : toMatrix 3 3 (dcmOf (q (t + l.length * ⟪a.ts⟫))) = rotZ psi * rotY theta * rotX phi)
    (ht : |theta| ≤ Real.pi / 2)
    (hd : E + l.length * (L * ⟪a.ts⟫ ^ 2 / 4 + η * ⟪a.ts⟫ / 2 + (8 / 10 ^ 6 + 4 / 10 ^ 7 * a.order + 6 / 10 ^ 5 * b +
      51 / 10 ^ 6 * ⟪a.ts⟫ + 9 / 10 ^ 6 * (C * B * ⟪a.ts⟫) + (if a.order = 1 then 0 else 288 / 100 * b ^ 2) + 34 / 100 * b ^ 3)) ≤ δ)
    (hδ : δ ≤ 3 / 25) (hg : |Real.sin theta| + 2 * δ ≤ 99998 / 100000) :
    ∃ s' v, feed l s = (.ok (), s') ∧ getAttitude s' = .ok v ∧ EulerNear v phi theta psi δ := by
  obtain ⟨s', k1, v, f, a1, a2, a3, a4, a5⟩ := C115_taylorF h hs hm ho1 ho hts hC h1 h2 h3 h4 h0 h5 hb hA l hB hl
  exact ⟨s', v, k1, a1, C124_angles a2 a3 a4 (h.norm _) (a5.trans hd) e ht hδ hg⟩

end AR

/-! ### Cases -/

/-- binary32 with accurate `sinf`, `cosf`, `asinf` and `atan2f`. -/
def F32E : Type := F32

open Classical in
noncomputable instance : Scalar F32E :=
  F32.withLibm (fun x => if Finite x then F32.ofReal (Real.sin x.toReal) else ⟨.nan⟩)
    (fun x => if Finite x then F32.ofReal (Real.cos x.toReal) else ⟨.nan⟩) Scalar.acos
    (fun x => if Finite x ∧ |x.toReal| ≤ 1 then F32.ofReal (Real.arcsin x.toReal) else ⟨.nan⟩) Scalar.exp
    (fun y x => if Finite y ∧ Finite x then F32.ofReal (Complex.arg ⟨x.toReal, y.toReal⟩) else ⟨.nan⟩) Scalar.pow
noncomputable instance : Rounded F32E := F32.withLibm_rounded ..

instance : Trig F32E where
  cos_finite {x} hx := Trig.cos_finite (F := F32T) (x := x) hx
  sin_finite {x} hx := Trig.sin_finite (F := F32T) (x := x) hx
  cos_near {x} hx := Trig.cos_near (F := F32T) (x := x) hx
  sin_near {x} hx := Trig.sin_near (F := F32T) (x := x) hx

instance : Arcs F32E where
  asin_near {x} hx h1 := Arcs.asin_near (F := F32A) (x := x) hx h1
  asin_nan {x} hx h1 := Arcs.asin_nan (F := F32A) (x := x) hx h1
  atan2_near {y x} hy hx := Arcs.atan2_near (F := F32A) (y := y) (x := x) hy hx

instance : Powers F32E where
  pow_near {x _} hx h1 h2 hb := Powers.pow_near (F := F32) (x := x) hx h1 h2 hb

instance : Literals F32E where
  lit_near q hq := Literals.lit_near (F := F32) q hq
  lit_int n hn := Literals.lit_int (F := F32) n hn

instance : Halves F32E where
  half := Halves.half (F := F32)
  quarter := Halves.quarter (F := F32)
  three := Halves.three (F := F32)
  neg_one := Halves.neg_one (F := F32)
  div_nonneg {x y} hx hy := Halves.div_nonneg (F := F32) (x := x) (y := y) hx hy

namespace AR

/-- The arguments of `AR.plainT` and, for the Taylor series of order 3, of `AR.plainS`. -/
noncomputable def plainAng (m : NIM) : ARInit F32E where
  qw := lit 1
  qx := lit 0
  qy := lit 0
  qz := lit 0
  config := .default
  ts := lit (1 / 100)
  method := m
  order := 3

theorem plainAng_ts (m : NIM) : Finite (plainAng m).ts ∧ 0 ≤ ⟪(plainAng m).ts⟫ ∧ ⟪(plainAng m).ts⟫ ≤ 11 / 1000 := by
  have e : (lit (1 / 100) : F32) = ⟨.fin (10737418 / 1073741824)⟩ := by decide +kernel
  refine ⟨show Finite (lit (1 / 100) : F32) by decide +kernel, ?_⟩
  show 0 ≤ F32.toReal (lit (1 / 100) : F32) ∧ F32.toReal (lit (1 / 100) : F32) ≤ _
  rw [e, F32.toReal_fin]
  norm_num

theorem plainAng_started (m : NIM) : ∃ s, Started (plainAng m) s ∧ ShowsF s fun f => NearUnit f ∧ ‖qval f - 1‖ ≤ 0 := by
  obtain ⟨s0, e0, -⟩ := AR.new_fresh (F := F32E)
  have h := (C46_iff (a := plainAng m) e0).mpr (by
    show _ ∧ Finite (lit 1 : F32) ∧ Finite (lit 0 : F32) ∧ Finite (lit 0 : F32) ∧ Finite (lit 0 : F32)
    refine ⟨?_, by decide +kernel⟩
    show ∀ x ∈ (GyrometerConfig.default : GyrometerConfig F32).params, Finite x
    decide +kernel)
  have hs : AR.Started (plainAng m) (AR.initWith (plainAng m) s0).2 :=
    ⟨s0, _, ⟨s0, e0, .refl _⟩, Prod.ext h rfl, .refl _⟩
  refine ⟨_, hs, ?_⟩
  obtain ⟨v, e1, hv⟩ := C46_attitude ⟨s0, e0, .refl _⟩ (Prod.ext h rfl : AR.initWith (plainAng m) s0 = (.ok (), _))
  have hq : qval (seq4 (plainAng m).qw (plainAng m).qx (plainAng m).qy (plainAng m).qz) = 1 := by
    show mkQ ⟪(lit 1 : F32E)⟫ ⟪(lit 0 : F32E)⟫ ⟪(lit 0 : F32E)⟫ ⟪(lit 0 : F32E)⟫ = 1
    rw [Rounded.one_val, Rounded.zero_val]
    rfl
  refine ⟨v, _, e1, hv, ?_, ?_, ?_⟩
  · exact forall_lt_four.mpr ⟨Rounded.one_finite, Rounded.zero_finite, Rounded.zero_finite, Rounded.zero_finite⟩
  · unfold NearUnit
    rw [hq]
    simp
  · rw [hq]
    simp

theorem plainAng_rate (m : NIM) : (plainAng m).config.rateOf (lit 1, lit 0, lit 0) = mkQ (0 : ℝ) 1 0 0 := by
  have v0 := Rounded.zero_val (F := F32E)
  have v1 := Rounded.one_val (F := F32E)
  simp only [GyrometerConfig.rateOf, GyrometerConfig.real, GyrometerConfig.rate, plainAng, GyrometerConfig.default, v0, v1]
  norm_num

theorem plainAng_within (m : NIM) : (plainAng m).config.Within 2 (lit 1, lit 0, lit 0) := by
  have v0 := Rounded.zero_val (F := F32E)
  have v1 := Rounded.one_val (F := F32E)
  have w0 := Rounded.zero_finite (F := F32E)
  have w1 := Rounded.one_finite (F := F32E)
  have b0 : ⟪(plainAng m).config.xBias⟫ = 0 ∧ ⟪(plainAng m).config.yBias⟫ = 0 ∧ ⟪(plainAng m).config.zBias⟫ = 0 := ⟨v0, v0, v0⟩
  unfold GyrometerConfig.Within
  rw [b0.1, b0.2.1, b0.2.2]
  simp [v0, v1, w0, w1]

theorem plainAng_upto (m : NIM) : (plainAng m).config.UpTo 1 := by
  intro k hk
  have : k = lit 1 ∨ k = lit 0 := by
    simp [plainAng, GyrometerConfig.default] at hk
    tauto
  rcases this with rfl | rfl
  · rw [Rounded.one_val]; norm_num
  · rw [Rounded.zero_val]; norm_num

/-- Turning about the first axis at the rate 1 for a time `u` is a roll of `u`. -/
theorem roll_exp (u : ℝ) : toMatrix 3 3 (dcmOf (1 * NormedSpace.exp (u • ((1 / 2 : ℝ) • mkQ (0 : ℝ) 1 0 0)))) =
    rotZ 0 * rotY 0 * rotX u := by
  have e : NormedSpace.exp (u • ((1 / 2 : ℝ) • mkQ (0 : ℝ) 1 0 0)) = mkQ (Real.cos (u / 2)) (Real.sin (u / 2)) 0 0 := by
    have e1 : u • ((1 / 2 : ℝ) • mkQ (0 : ℝ) 1 0 0) = mkQ 0 (u / 2) 0 0 := by
      rw [mkQ_scale, mkQ_scale]
      congr 1 <;> ring
    have e2 : ‖mkQ 0 (u / 2) 0 0‖ = |u / 2| := by
      rw [norm_mkQ, ← Real.sqrt_sq_eq_abs]
      congr 1
      ring
    rw [e1, Quaternion.exp_of_re_eq_zero _ rfl, e2, Real.cos_abs]
    have e3 : Real.sin |u / 2| / |u / 2| * (u / 2) = Real.sin (u / 2) := by
      rcases eq_or_ne (u / 2) 0 with h | h
      · rw [h]; simp
      · rcases abs_cases (u / 2) with ⟨h1, -⟩ | ⟨h1, -⟩
        · rw [h1, div_mul_cancel₀ _ h]
        · rw [h1, Real.sin_neg, neg_div_neg_eq, div_mul_cancel₀ _ h]
    rw [mkQ_scale, e3]
    ext <;> simp
  have h1 := Real.cos_two_mul (u / 2)
  have h2 := Real.sin_two_mul (u / 2)
  have h3 := Real.sin_sq_add_cos_sq (u / 2)
  rw [show 2 * (u / 2) = u by ring] at h1 h2
  rw [one_mul, e]
  ext i j
  fin_cases i <;> fin_cases j <;>
    simp [toMatrix, dcmOf, tbl, mkQ, rotZ, rotY, rotX, Matrix.mul_apply, Fin.sum_univ_three]
  all_goals nlinarith

/-- The hypotheses of `C124_closed` hold for the constant rate (1, 0, 0), read 200 times: the roll that is read is
200 periods. -/
example : ∃ s s' v, Started (plainAng .ClosedForm) s ∧
    feed (List.replicate 200 ((lit 1, lit 0, lit 0) : F32E × F32E × F32E)) s = (.ok (), s') ∧ getAttitude s' = .ok v ∧
    EulerNear v (200 * ⟪(plainAng .ClosedForm).ts⟫) 0 0 (4 / 1000) := by
  obtain ⟨s, hs, hA⟩ := plainAng_started .ClosedForm
  obtain ⟨t1, t0, t3⟩ := plainAng_ts .ClosedForm
  obtain ⟨s', v, k⟩ := C124_closed (B := 2) (C := 1) (η := 0) (t := 0) (E := 0) (δ := 4 / 1000)
    (phi := 200 * ⟪(plainAng .ClosedForm).ts⟫) (theta := 0) (psi := 0)
    (Motion.const (A := 1) (v := mkQ (0 : ℝ) 1 0 0) norm_one rfl) hs rfl t1 (plainAng_upto _)
    (by norm_num) (by norm_num) (by norm_num) (by linarith) t0 (t3.trans (by norm_num)) (by simpa using hA)
    (List.replicate 200 ((lit 1, lit 0, lit 0) : F32E × F32E × F32E))
    (by
      intro x hx
      rw [(List.mem_replicate.mp hx).2]
      exact plainAng_within _)
    (by
      intro k hk
      refine ⟨0 + k * ⟪(plainAng .ClosedForm).ts⟫, ⟨le_rfl, by linarith⟩, ?_⟩
      rw [List.getElem_replicate, plainAng_rate, sub_self, norm_zero])
    (by
      rw [List.length_replicate, zero_add]
      exact roll_exp _)
    (by rw [abs_zero]; positivity)
    (by
      rw [List.length_replicate]
      norm_num
      linarith)
    (by norm_num) (by norm_num)
  exact ⟨s, s', v, hs, k⟩

/-- The hypotheses of `C124_taylor` hold for the constant rate (1, 0, 0), read 20 times. -/
example : ∃ s s' v, Started (plainAng .TaylorSeries) s ∧
    feed (List.replicate 20 ((lit 1, lit 0, lit 0) : F32E × F32E × F32E)) s = (.ok (), s') ∧ getAttitude s' = .ok v ∧
    EulerNear v (20 * ⟪(plainAng .TaylorSeries).ts⟫) 0 0 (8 / 1000) := by
  obtain ⟨s, hs, hA⟩ := plainAng_started .TaylorSeries
  obtain ⟨t1, t0, t3⟩ := plainAng_ts .TaylorSeries
  obtain ⟨s', v, k⟩ := C124_taylor (B := 2) (C := 1) (b := 11 / 1000) (η := 0) (t := 0) (E := 0) (δ := 8 / 1000)
    (phi := 20 * ⟪(plainAng .TaylorSeries).ts⟫) (theta := 0) (psi := 0)
    (Motion.const (A := 1) (v := mkQ (0 : ℝ) 1 0 0) norm_one rfl) hs rfl (by decide) (by decide) t1 (plainAng_upto _)
    (by norm_num) (by norm_num) (by norm_num) (by linarith) t0 (t3.trans (by norm_num)) (by norm_num) (by simpa using hA)
    (List.replicate 20 ((lit 1, lit 0, lit 0) : F32E × F32E × F32E))
    (by
      intro x hx
      rw [(List.mem_replicate.mp hx).2]
      refine ⟨plainAng_within _, ?_⟩
      rw [plainAng_rate, norm_smul, norm_mkQ, Real.norm_eq_abs, abs_of_nonneg (by linarith)]
      norm_num
      linarith)
    (by
      intro k hk
      refine ⟨0 + k * ⟪(plainAng .TaylorSeries).ts⟫, ⟨le_rfl, by linarith⟩, ?_⟩
      rw [List.getElem_replicate, plainAng_rate, sub_self, norm_zero])
    (by
      rw [List.length_replicate, zero_add]
      exact roll_exp _)
    (by rw [abs_zero]; positivity)
    (by
      rw [List.length_replicate, show (plainAng .TaylorSeries).order = 3 from rfl]
      norm_num
      linarith)
    (by norm_num) (by norm_num)
  exact ⟨s, s', v, hs, k⟩

end AR
end Verif
