import Mathlib.Analysis.SpecialFunctions.Trigonometric.Bounds
import Mathlib.Analysis.SpecialFunctions.Trigonometric.Deriv
import Mathlib.Analysis.Real.Pi.Bounds
import Verif.Model.Measurements
import Verif.Props.Euler
import Verif.Props.Rotation

/-
The measurements that `generate_raw_measurements.py` writes (C98).
-/

namespace Verif.Generator
open Matrix

section
variable {roll pitch yaw roll' pitch' yaw' Te : ℝ}

/-- The rate of turn before the sensor of an attitude whose angles change at the rates `a`, `b`, `c`. -/
noncomputable def bodyRate (phi theta a b c : ℝ) : Fin 3 → ℝ :=
  ![a - c * Real.sin theta, b * Real.cos phi + c * (Real.sin phi * Real.cos theta),
    c * (Real.cos phi * Real.cos theta) - b * Real.sin phi]

/-- What the function returns when the pitch is not a right angle. -/
theorem generate_eq (hc : Real.cos (radians pitch) ≠ 0) :
    generateRawMeasurements roll pitch yaw roll' pitch' yaw' Te = .ok
      ⟨(rotZ (radians yaw) * rotY (radians pitch) * rotX (radians roll)) *ᵥ ![0, 0, -(981 / 100)],
       (rotZ (radians yaw) * rotY (radians pitch) * rotX (radians roll)) *ᵥ ![48, 0, 0],
       bodyRate (radians roll) (radians pitch) ((radians roll - radians roll') / Te)
        ((radians pitch - radians pitch') / Te) ((radians yaw - radians yaw') / Te)⟩ := by
  unfold generateRawMeasurements
  set p := radians roll
  set t := radians pitch
  set s := radians yaw
  set a := (p - radians roll') / Te
  set b := (t - radians pitch') / Te
  set c := (s - radians yaw') / Te
  have hi : inv !![1, Real.sin p * Real.tan t, Real.cos p * Real.tan t; 0, Real.cos p, -Real.sin p;
      0, Real.sin p / Real.cos t, Real.cos p / Real.cos t] =
      .ok !![1, 0, -Real.sin t; 0, Real.cos p, Real.sin p * Real.cos t; 0, -Real.sin p, Real.cos p * Real.cos t] := by
    have hm : (!![1, Real.sin p * Real.tan t, Real.cos p * Real.tan t; 0, Real.cos p, -Real.sin p;
      0, Real.sin p / Real.cos t, Real.cos p / Real.cos t] : Matrix (Fin 3) (Fin 3) ℝ) *
      !![1, 0, -Real.sin t; 0, Real.cos p, Real.sin p * Real.cos t; 0, -Real.sin p, Real.cos p * Real.cos t] = 1 := by
      have hp := Real.sin_sq_add_cos_sq p
      ext i j
      fin_cases i <;> fin_cases j <;> simp [Matrix.mul_apply, Fin.sum_univ_three, Real.tan_eq_sin_div_cos]
      · ring
      · field_simp
        linear_combination Real.sin t * hp
      · linear_combination hp
      · ring
      · ring
      · field_simp
        linear_combination hp
    unfold inv
    rw [if_neg, Matrix.inv_eq_right_inv hm]
    intro h0
    have := congrArg Matrix.det hm
    rw [Matrix.det_mul, h0] at this
    simp at this
  simp only [hi]
  show Except.ok _ = Except.ok _
  have h1 : (!![1, 0, -Real.sin t; 0, Real.cos p, Real.sin p * Real.cos t; 0, -Real.sin p, Real.cos p * Real.cos t] :
      Matrix (Fin 3) (Fin 3) ℝ) *ᵥ ![a, b, c] = bodyRate p t a b c := by
    ext i
    fin_cases i <;> simp [Matrix.mulVec, dotProduct, Fin.sum_univ_three, bodyRate] <;> ring
  have h2 : (![48 * Real.cos (radians 0), 0, -48 * Real.sin (radians 0)] : Fin 3 → ℝ) = ![48, 0, 0] := by
    simp [radians]
  rw [h1, h2]
  rfl

/-- C98: for every attitude outside gimbal lock the readings have the magnitudes of the fields, and they are
what the quaternion library makes of the fields with `rotate`, for a unit quaternion to which `convert_to_euler` assigns
the angles: the readings are turned from the sensor frame to the fixed frame and not back. -/
theorem C98_fields {a va vm : Vec XR} {q : Quaternion ℝ} (ha : QuatIs a q)
    (hq : Quaternion.normSq q = 1) (hs : (2 * (q.re * q.imJ - q.imK * q.imI)) ^ 2 ≠ 1)
    (he : Quat.convertToEuler a = .ok (.fin (radians roll), .fin (radians pitch), .fin (radians yaw)))
    (hg : Vec3Is va ![0, 0, -(981 / 100)]) (hm : Vec3Is vm ![48, 0, 0]) :
    ∃ r x y, generateRawMeasurements roll pitch yaw roll' pitch' yaw' Te = .ok r ∧
      Quat.rotate a va = .ok x ∧ Vec3Is x r.acc ∧ Quat.rotate a vm = .ok y ∧ Vec3Is y r.mag ∧
      r.acc 0 ^ 2 + r.acc 1 ^ 2 + r.acc 2 ^ 2 = (981 / 100) ^ 2 ∧
      r.mag 0 ^ 2 + r.mag 1 ^ 2 + r.mag 2 ^ 2 = 48 ^ 2 := by
  obtain ⟨phi, theta, psi, m, D, e1, e2, hD, eD, ht, _, _⟩ := C64_euler ha hq hs
  rw [he] at e1
  simp only [Except.ok.injEq, Prod.mk.injEq, Ext.fin.injEq] at e1
  obtain ⟨rfl, rfl, rfl⟩ := e1
  obtain ⟨m', e3, hm'⟩ := dcm_run ha
  obtain rfl : m' = m := Except.ok.inj (e3.symm.trans e2)
  have hDq : toMatrix 3 3 D = toMatrix 3 3 (dcmOf q) := by
    ext i j
    have := (hD.get i j i.2 j.2).symm.trans (hm'.get i j i.2 j.2)
    simpa [toMatrix] using this
  obtain ⟨x, ex, hx⟩ := rotate_run ha hq hg
  obtain ⟨y, ey, hy⟩ := rotate_run ha hq hm
  have k : ∀ u, (rotZ (radians yaw) * rotY (radians pitch) * rotX (radians roll)) *ᵥ u = rotBy q u := by
    intro u
    rw [← eD, hDq, dcmOf_mulVec hq]
  refine ⟨_, x, y, generate_eq (Real.cos_pos_of_mem_Ioo ht).ne', ex, ?_, ey, ?_, ?_, ?_⟩
  · simp only [k]
    exact hx
  · simp only [k]
    exact hy
  · simp only [k, rotBy_norm hq]
    simp
  · simp only [k, rotBy_norm hq]
    simp

theorem hasDeriv_of {f g : ℝ → ℝ} {d d' x : ℝ} (h : HasDerivAt f d x) (hf : ∀ t, g t = f t) (hd : d' = d) :
    HasDerivAt g d' x := by
  rw [hd, show g = f from funext hf]
  exact h

/-- C98: the rate that is written is the rate of turn before the sensor at the end of the period, for an attitude whose
angles change at constant rates during the period. -/
theorem C98_rate (hc : Real.cos (radians pitch) ≠ 0) (hT : Te ≠ 0) :
    ∃ r, generateRawMeasurements roll pitch yaw roll' pitch' yaw' Te = .ok r ∧ ∀ i j : Fin 3,
      HasDerivAt (fun t => (rotZ (radians (yaw' + t / Te * (yaw - yaw'))) *
          rotY (radians (pitch' + t / Te * (pitch - pitch'))) * rotX (radians (roll' + t / Te * (roll - roll')))) i j)
        ((rotZ (radians yaw) * rotY (radians pitch) * rotX (radians roll) *
          !![0, -r.gyr 2, r.gyr 1; r.gyr 2, 0, -r.gyr 0; -r.gyr 1, r.gyr 0, 0]) i j) Te := by
  refine ⟨_, generate_eq hc, fun i j => ?_⟩
  have hlin : ∀ x y : ℝ, HasDerivAt (fun t => radians (y + t / Te * (x - y))) ((radians x - radians y) / Te) Te := by
    intro x y
    have h : HasDerivAt (fun t : ℝ => (y + t / Te * (x - y)) * (Real.pi / 180)) ((1 / Te * (x - y)) * (Real.pi / 180)) Te :=
      (((hasDerivAt_id Te).div_const Te).mul_const (x - y)).const_add y |>.mul_const _
    refine h.congr_deriv ?_
    unfold radians
    field_simp
  have hat : ∀ x y : ℝ, radians (y + Te / Te * (x - y)) = radians x := by
    intro x y
    rw [div_self hT, one_mul, add_sub_cancel]
  have hy := hlin yaw yaw'
  have hp := hlin pitch pitch'
  have hr := hlin roll roll'
  have cy := hy.cos
  have sy := hy.sin
  have cp := hp.cos
  have sp := hp.sin
  have cr := hr.cos
  have sr := hr.sin
  rw [hat] at cy sy cp sp cr sr
  have qr := Real.sin_sq_add_cos_sq (radians roll)
  have qp := Real.sin_sq_add_cos_sq (radians pitch)
  set a := (radians roll - radians roll') / Te
  set b := (radians pitch - radians pitch') / Te
  set c := (radians yaw - radians yaw') / Te
  fin_cases i <;> fin_cases j
  · refine hasDeriv_of (cy.mul cp) (fun t => ?_) ?_
    · simp [rotX, rotY, rotZ, Matrix.mul_apply, Fin.sum_univ_three]
      try ring1
    · simp [rotX, rotY, rotZ, bodyRate, Matrix.mul_apply, Fin.sum_univ_three, hat]
      linear_combination -((Real.sin (radians yaw) * Real.cos (radians pitch) * c + Real.cos (radians yaw) * Real.sin (radians pitch) * b) * qr)
  · refine hasDeriv_of (((cy.mul sp).mul sr).sub (sy.mul cr)) (fun t => ?_) ?_
    · simp [rotX, rotY, rotZ, Matrix.mul_apply, Fin.sum_univ_three]
      try ring1
    · simp [rotX, rotY, rotZ, bodyRate, Matrix.mul_apply, Fin.sum_univ_three, hat]
      linear_combination -((Real.cos (radians yaw) * Real.cos (radians roll) * c) * qp)
  · refine hasDeriv_of (((cy.mul sp).mul cr).add (sy.mul sr)) (fun t => ?_) ?_
    · simp [rotX, rotY, rotZ, Matrix.mul_apply, Fin.sum_univ_three]
      try ring1
    · simp [rotX, rotY, rotZ, bodyRate, Matrix.mul_apply, Fin.sum_univ_three, hat]
      linear_combination (Real.cos (radians yaw) * Real.sin (radians roll) * c) * qp
  · refine hasDeriv_of (sy.mul cp) (fun t => ?_) ?_
    · simp [rotX, rotY, rotZ, Matrix.mul_apply, Fin.sum_univ_three]
      try ring1
    · simp [rotX, rotY, rotZ, bodyRate, Matrix.mul_apply, Fin.sum_univ_three, hat]
      linear_combination -((Real.sin (radians yaw) * Real.sin (radians pitch) * b - Real.cos (radians yaw) * Real.cos (radians pitch) * c) * qr)
  · refine hasDeriv_of (((sy.mul sp).mul sr).add (cy.mul cr)) (fun t => ?_) ?_
    · simp [rotX, rotY, rotZ, Matrix.mul_apply, Fin.sum_univ_three]
      try ring1
    · simp [rotX, rotY, rotZ, bodyRate, Matrix.mul_apply, Fin.sum_univ_three, hat]
      linear_combination -((Real.sin (radians yaw) * Real.cos (radians roll) * c) * qp)
  · refine hasDeriv_of (((sy.mul sp).mul cr).sub (cy.mul sr)) (fun t => ?_) ?_
    · simp [rotX, rotY, rotZ, Matrix.mul_apply, Fin.sum_univ_three]
      try ring1
    · simp [rotX, rotY, rotZ, bodyRate, Matrix.mul_apply, Fin.sum_univ_three, hat]
      linear_combination (Real.sin (radians yaw) * Real.sin (radians roll) * c) * qp
  · refine hasDeriv_of (sp.neg) (fun t => ?_) ?_
    · simp [rotX, rotY, rotZ, Matrix.mul_apply, Fin.sum_univ_three]
      try ring1
    · simp [rotX, rotY, rotZ, bodyRate, Matrix.mul_apply, Fin.sum_univ_three]
      linear_combination -((Real.cos (radians pitch) * b) * qr)
  · refine hasDeriv_of (cp.mul sr) (fun t => ?_) ?_
    · simp [rotX, rotY, rotZ, Matrix.mul_apply, Fin.sum_univ_three]
      try ring1
    · simp [rotX, rotY, rotZ, bodyRate, Matrix.mul_apply, Fin.sum_univ_three, hat]
      ring
  · refine hasDeriv_of (cp.mul cr) (fun t => ?_) ?_
    · simp [rotX, rotY, rotZ, Matrix.mul_apply, Fin.sum_univ_three]
      try ring1
    · simp [rotX, rotY, rotZ, bodyRate, Matrix.mul_apply, Fin.sum_univ_three, hat]
      ring

/-- C98: the fields are not turned to the sensor frame, as the comment in line 62 says: for roll, pitch and yaw in the first
quadrant the first component of the acceleration has the wrong sign. -/
theorem C98_frame (h1 : 0 < roll) (h2 : roll < 90) (h3 : 0 < pitch) (h4 : pitch < 90) (h5 : 0 ≤ yaw) (h6 : yaw ≤ 90) :
    ∃ r, generateRawMeasurements roll pitch yaw roll' pitch' yaw' Te = .ok r ∧ r.acc 0 < 0 ∧
      0 < ((rotZ (radians yaw) * rotY (radians pitch) * rotX (radians roll))ᵀ *ᵥ ![0, 0, -(981 / 100)]) 0 := by
  have hpi := Real.pi_pos
  have hu : ∀ x : ℝ, x < 90 → radians x < Real.pi / 2 := fun x hx => by unfold radians; nlinarith
  have hl : ∀ x : ℝ, 0 < x → 0 < radians x := fun x hx => by unfold radians; positivity
  have cr := Real.cos_pos_of_mem_Ioo ⟨by linarith [hl _ h1], hu _ h2⟩
  have cp := Real.cos_pos_of_mem_Ioo ⟨by linarith [hl _ h3], hu _ h4⟩
  have sr := Real.sin_pos_of_pos_of_lt_pi (hl _ h1) (by linarith [hu _ h2])
  have sp := Real.sin_pos_of_pos_of_lt_pi (hl _ h3) (by linarith [hu _ h4])
  have hy1 : 0 ≤ radians yaw := by unfold radians; positivity
  have hy2 : radians yaw ≤ Real.pi / 2 := by unfold radians; nlinarith
  have cy := Real.cos_nonneg_of_mem_Icc ⟨by linarith, hy2⟩
  have sy := Real.sin_nonneg_of_nonneg_of_le_pi hy1 (by linarith)
  refine ⟨_, generate_eq cp.ne', ?_, ?_⟩
  · simp [rotX, rotY, rotZ, Matrix.mulVec, dotProduct, Matrix.mul_apply, Fin.sum_univ_three]
    have hq := Real.sin_sq_add_cos_sq (radians yaw)
    rcases cy.eq_or_lt with hc | hc
    · have : 0 < Real.sin (radians yaw) := by
        rcases sy.eq_or_lt with h | h
        · rw [← hc, ← h] at hq
          norm_num at hq
        · exact h
      rw [← hc]
      have := mul_pos this sr
      linarith
    · have k1 := mul_pos (mul_pos hc sp) cr
      have k2 := mul_nonneg sy sr.le
      linarith
  · simp [rotX, rotY, rotZ, Matrix.mulVec, dotProduct, Fin.sum_univ_three]
    linarith

end

/-- Beside `C98_fields`: a quaternion and angles that meet the hypotheses. -/
example : ∃ (a va vm : Vec XR) (q : Quaternion ℝ) (roll pitch yaw : ℝ), QuatIs a q ∧ Quaternion.normSq q = 1 ∧
    (2 * (q.re * q.imJ - q.imK * q.imI)) ^ 2 ≠ 1 ∧ q.imI ≠ 0 ∧
    Quat.convertToEuler a = .ok (.fin (radians roll), .fin (radians pitch), .fin (radians yaw)) ∧
    Vec3Is va ![0, 0, -(981 / 100)] ∧ Vec3Is vm ![48, 0, 0] := by
  have ha : QuatIs (Vec.of 4 _) (mkQ (2 / 5) (2 / 5) (1 / 5) (4 / 5) : Quaternion ℝ) :=
    Vec.of_is _ (by decide) (by decide)
  have hn : Quaternion.normSq (mkQ (2 / 5) (2 / 5) (1 / 5) (4 / 5) : Quaternion ℝ) = 1 := by rw [normSq_mkQ]; norm_num
  have hs : (2 * ((mkQ (2 / 5) (2 / 5) (1 / 5) (4 / 5) : Quaternion ℝ).re * (mkQ (2 / 5) (2 / 5) (1 / 5) (4 / 5)).imJ -
      (mkQ (2 / 5) (2 / 5) (1 / 5) (4 / 5)).imK * (mkQ (2 / 5) (2 / 5) (1 / 5) (4 / 5)).imI)) ^ 2 ≠ 1 := by
    simp only [mkQ_re, mkQ_imI, mkQ_imJ, mkQ_imK]
    norm_num
  obtain ⟨phi, theta, psi, _, _, e, _⟩ := C64_euler ha hn hs
  have hr : ∀ x, radians (x / (Real.pi / 180)) = x := fun x => by
    unfold radians
    exact div_mul_cancel₀ _ (by positivity)
  refine ⟨_, Vec.of 3 _, Vec.of 3 _, _, phi / (Real.pi / 180), theta / (Real.pi / 180), psi / (Real.pi / 180), ha, hn, hs,
    ?_, ?_, Vec.of_is _ (by decide) (by decide), Vec.of_is _ (by decide) (by decide)⟩
  · simp only [mkQ_imI]
    norm_num
  · rw [hr, hr, hr]
    exact e

/-- Beside `C98_rate`: a step of one degree about each axis in 4 milliseconds. -/
example : Real.cos (radians 1) ≠ 0 ∧ (4 / 1000 : ℝ) ≠ 0 := by
  have := Real.pi_pos
  refine ⟨(Real.cos_pos_of_mem_Ioo ⟨?_, ?_⟩).ne', by norm_num⟩ <;> unfold radians <;> linarith

/-- Beside `C98_frame`: the second row of the file. -/
example : ∃ r, generateRawMeasurements 1 1 2 0 0 0 (4 / 1000) = .ok r ∧ r.acc 0 < 0 := by
  obtain ⟨r, e, h, _⟩ := C98_frame (roll := 1) (pitch := 1) (yaw := 2) (roll' := 0) (pitch' := 0) (yaw' := 0)
    (Te := 4 / 1000) (by norm_num) (by norm_num) (by norm_num) (by norm_num) (by norm_num) (by norm_num)
  exact ⟨r, e, h⟩

/-! ### The file -/

/-- A rational number and a bound of its error. -/
abbrev Ball := ℚ × ℚ

/-- The real number is in the ball. -/
def In (x : ℝ) (b : Ball) : Prop := |x - b.1| ≤ b.2

def Ball.mul (a b : Ball) : Ball := (a.1 * b.1, |a.1| * b.2 + |b.1| * a.2 + a.2 * b.2)
def Ball.add (a b : Ball) : Ball := (a.1 + b.1, a.2 + b.2)
def Ball.sub (a b : Ball) : Ball := (a.1 - b.1, a.2 + b.2)

section
variable {x y : ℝ} {a b : Ball}

theorem In.nonneg (h : In x a) : (0 : ℝ) ≤ a.2 := (abs_nonneg _).trans h

theorem In.mul (hx : In x a) (hy : In y b) : In (x * y) (a.mul b) := by
  have e : x * y - ((a.1 * b.1 : ℚ) : ℝ) = a.1 * (y - b.1) + b.1 * (x - a.1) + (x - a.1) * (y - b.1) := by
    push_cast
    ring
  unfold In Ball.mul
  rw [e]
  push_cast
  refine (abs_add_three _ _ _).trans ?_
  rw [abs_mul, abs_mul, abs_mul]
  have h1 := mul_le_mul_of_nonneg_left hy (abs_nonneg (a.1 : ℝ))
  have h2 := mul_le_mul_of_nonneg_left hx (abs_nonneg (b.1 : ℝ))
  have h3 := mul_le_mul hx hy (abs_nonneg _) hx.nonneg
  linarith

theorem In.add (hx : In x a) (hy : In y b) : In (x + y) (a.add b) := by
  unfold In Ball.add
  push_cast
  calc |x + y - (a.1 + b.1)| = |(x - a.1) + (y - b.1)| := by ring_nf
    _ ≤ _ := (abs_add_le _ _).trans (add_le_add hx hy)

theorem In.sub (hx : In x a) (hy : In y b) : In (x - y) (a.sub b) := by
  unfold In Ball.sub
  push_cast
  calc |x - y - (a.1 - b.1)| = |(x - a.1) - (y - b.1)| := by ring_nf
    _ ≤ _ := (abs_sub _ _).trans (add_le_add hx hy)

theorem In.const (q : ℚ) : In (q : ℝ) (q, 0) := by simp [In]

theorem In.near (h : In x a) {q e : ℚ} (hq : |a.1 - q| + a.2 < e) : |x - q| < e := by
  have h1 : ((|a.1 - q| + a.2 : ℚ) : ℝ) < e := by exact_mod_cast hq
  push_cast at h1
  calc |x - (q : ℝ)| = |(x - a.1) + (a.1 - q)| := by ring_nf
    _ ≤ |x - a.1| + |(a.1 : ℝ) - q| := abs_add_le _ _
    _ < e := by linarith [show |x - a.1| ≤ a.2 from h]

end

/-- One degree. -/
def degB : Ball := (174532925 / 10000000000, 1 / 200000000)

/-- Cosine and sine of one degree. -/
def cos1 : Ball := (9998476951 / 10000000000, 1 / 100000000)
def sin1 : Ball := (174524064 / 10000000000, 2 / 100000000)

theorem deg_in : In (Real.pi / 180) degB := by
  have h1 := Real.pi_gt_d6
  have h2 := Real.pi_lt_d6
  unfold In degB
  rw [abs_le]
  push_cast
  constructor <;> linarith

theorem deg_le : |Real.pi / 180| ≤ 175 / 10000 := by
  have h1 := Real.pi_gt_d6
  have h2 := Real.pi_lt_d6
  rw [abs_of_pos (by positivity)]
  linarith

theorem cos1_in : In (Real.cos (Real.pi / 180)) cos1 := by
  have h := Real.cos_bound (deg_le.trans (by norm_num))
  have h4 : |Real.pi / 180| ^ 4 ≤ (175 / 10000) ^ 4 := pow_le_pow_left₀ (abs_nonneg _) deg_le 4
  have hb : In (1 - (Real.pi / 180) ^ 2 / 2) (Ball.sub (1, 0) (Ball.mul (1 / 2, 0) (degB.mul degB))) := by
    have := (In.const 1).sub ((In.const (1 / 2)).mul (deg_in.mul deg_in))
    convert this using 1
    push_cast
    ring
  have hn := hb.near (q := 9998476951 / 10000000000) (e := 1 / 200000000) (by decide +kernel)
  unfold In cos1
  push_cast at hn ⊢
  have := abs_sub_le (Real.cos (Real.pi / 180)) (1 - (Real.pi / 180) ^ 2 / 2) (9998476951 / 10000000000)
  norm_num at h4
  linarith

theorem sin1_in : In (Real.sin (Real.pi / 180)) sin1 := by
  have h := Real.sin_bound (deg_le.trans (by norm_num))
  have h4 : |Real.pi / 180| ^ 5 ≤ (175 / 10000) ^ 5 := pow_le_pow_left₀ (abs_nonneg _) deg_le 5
  have hb : In (Real.pi / 180 - (Real.pi / 180) ^ 3 / 6)
      (degB.sub (Ball.mul (1 / 6, 0) ((degB.mul degB).mul degB))) := by
    have := deg_in.sub ((In.const (1 / 6)).mul ((deg_in.mul deg_in).mul deg_in))
    convert this using 1
    push_cast
    ring
  have hn := hb.near (q := 174524064 / 10000000000) (e := 12 / 1000000000) (by decide +kernel)
  unfold In sin1
  push_cast at hn ⊢
  have := abs_sub_le (Real.sin (Real.pi / 180)) (Real.pi / 180 - (Real.pi / 180) ^ 3 / 6) (174524064 / 10000000000)
  norm_num at h4
  linarith

/-- Cosine and sine of a number of degrees. -/
def trig : Nat → Ball × Ball
  | 0 => ((1, 0), (0, 0))
  | k + 1 => (((trig k).1.mul cos1).sub ((trig k).2.mul sin1), ((trig k).2.mul cos1).add ((trig k).1.mul sin1))

theorem trig_in (k : Nat) : In (Real.cos (radians k)) (trig k).1 ∧ In (Real.sin (radians k)) (trig k).2 := by
  induction k with
  | zero => simp [radians, trig, In]
  | succ k ih =>
    have e : radians ((k + 1 : Nat) : ℝ) = radians k + Real.pi / 180 := by
      unfold radians
      push_cast
      ring
    rw [e, Real.cos_add, Real.sin_add]
    exact ⟨(ih.1.mul cos1_in).sub (ih.2.mul sin1_in), (ih.2.mul cos1_in).add (ih.1.mul sin1_in)⟩

/-- The numbers in `build/raw_measurements.csv`. -/
def file : List (List ℚ) := [
  [0, 0, -9810, 0, 0, 0, 48000, 0, 0],
  [-177, 165, -9807, 4211, 4515, 8648, 47963, 1675, -838],
  [-365, 318, -9798, 4059, 4665, 8564, 47854, 3346, -1675],
  [-564, 457, -9783, 3907, 4813, 8474, 47672, 5010, -2512],
  [-771, 583, -9762, 3755, 4960, 8380, 47417, 6664, -3348],
  [-987, 694, -9735, 3603, 5104, 8280, 47091, 8303, -4183]].map (List.map (· / 1000))

/-- The balls of a row: `k` degrees of roll and pitch, `2 k` degrees of yaw, `d` times 250 degrees per second. -/
def rowB (k : Nat) (d : Rat) : List Ball :=
  let c := (trig k).1
  let s := (trig k).2
  let cy := (trig (2 * k)).1
  let sy := (trig (2 * k)).2
  let r : Ball := Ball.mul (250 * d, 0) degB
  let ry : Ball := Ball.mul (500 * d, 0) degB
  [Ball.mul (-981 / 100, 0) (((cy.mul s).mul c).add (sy.mul s)),
   Ball.mul (-981 / 100, 0) (((sy.mul s).mul c).sub (cy.mul s)),
   Ball.mul (-981 / 100, 0) (c.mul c),
   r.sub (ry.mul s), (r.mul c).add (ry.mul (s.mul c)), (ry.mul (c.mul c)).sub (r.mul s),
   Ball.mul (48, 0) (cy.mul c), Ball.mul (48, 0) (sy.mul c), Ball.mul (-48, 0) s]

/-- What the function returns for a row. -/
theorem row_in (k : Nat) (d : ℚ) (hk : Real.cos (radians k) ≠ 0) :
    ∃ r, generateRawMeasurements k k ((2 * k : Nat) : ℝ) (k - d) (k - d) ((2 * k : Nat) - 2 * d) (4 / 1000) = .ok r ∧
      List.Forall₂ In r.columns (rowB k d) := by
  refine ⟨_, generate_eq hk, ?_⟩
  obtain ⟨hc, hs⟩ := trig_in k
  obtain ⟨hcy, hsy⟩ := trig_in (2 * k)
  have er : (radians k - radians (k - d)) / (4 / 1000) = ((250 * d : ℚ) : ℝ) * (Real.pi / 180) := by
    unfold radians
    push_cast
    ring
  have ey : (radians ((2 * k : Nat) : ℝ) - radians ((2 * k : Nat) - 2 * d)) / (4 / 1000) =
      ((500 * d : ℚ) : ℝ) * (Real.pi / 180) := by
    unfold radians
    push_cast
    ring
  rw [er, ey]
  have hr := (In.const (250 * d)).mul deg_in
  have hry := (In.const (500 * d)).mul deg_in
  have p1 := (In.const (-981 / 100)).mul (((hcy.mul hs).mul hc).add (hsy.mul hs))
  have p2 := (In.const (-981 / 100)).mul (((hsy.mul hs).mul hc).sub (hcy.mul hs))
  have p3 := (In.const (-981 / 100)).mul (hc.mul hc)
  have p4 := hr.sub (hry.mul hs)
  have p5 := (hr.mul hc).add (hry.mul (hs.mul hc))
  have p6 := (hry.mul (hc.mul hc)).sub (hr.mul hs)
  have p7 := (In.const 48).mul (hcy.mul hc)
  have p8 := (In.const 48).mul (hsy.mul hc)
  have p9 := (In.const (-48)).mul hs
  refine .cons ?_ <| .cons ?_ <| .cons ?_ <| .cons ?_ <| .cons ?_ <| .cons ?_ <| .cons ?_ <| .cons ?_ <| .cons ?_ .nil
  · convert p1 using 1
    simp [rotX, rotY, rotZ, Matrix.mulVec, dotProduct, Matrix.mul_apply, Fin.sum_univ_three]
    ring
  · convert p2 using 1
    simp [rotX, rotY, rotZ, Matrix.mulVec, dotProduct, Matrix.mul_apply, Fin.sum_univ_three]
    ring
  · convert p3 using 1
    simp [rotX, rotY, rotZ, Matrix.mulVec, dotProduct, Matrix.mul_apply, Fin.sum_univ_three]
    ring
  · convert p4 using 1
    simp [bodyRate]
  · convert p5 using 1
    simp [bodyRate]
  · convert p6 using 1
    simp [bodyRate]
  · convert p7 using 1
    simp [rotX, rotY, rotZ, Matrix.mulVec, dotProduct, Matrix.mul_apply, Fin.sum_univ_three]
    ring
  · convert p8 using 1
    simp [rotX, rotY, rotZ, Matrix.mulVec, dotProduct, Matrix.mul_apply, Fin.sum_univ_three]
    ring
  · convert p9 using 1
    simp [rotX, rotY, rotZ, Matrix.mulVec, dotProduct, Matrix.mul_apply, Fin.sum_univ_three]
    ring

/-- The rows and the balls agree with the file. -/
theorem forall_near {l : List ℝ} {bs : List Ball} {qs : List ℚ} (h : List.Forall₂ In l bs)
    (hq : List.Forall₂ (fun b q => |b.1 - q| + b.2 < 1 / 2000) bs qs) :
    List.Forall₂ (fun (x : ℝ) (q : ℚ) => |x - q| < 1 / 2000) l qs := by
  induction h generalizing qs with
  | nil => cases hq; exact .nil
  | cons hx _ ih =>
    cases hq with
    | cons hb hr =>
      refine .cons ?_ (ih hr)
      have := hx.near hb
      push_cast at this
      exact this

/-- C98: the program ends without an exception, and each number of `build/raw_measurements.csv` is the number with three
decimals nearest to what the program computes. -/
theorem C98_file : ∃ rs, rows = .ok rs ∧
    List.Forall₂ (fun r f => List.Forall₂ (fun (x : ℝ) (q : ℚ) => |x - q| < 1 / 2000) r.columns f) rs file := by
  have hc : ∀ k : Nat, k ≤ 5 → Real.cos (radians k) ≠ 0 := by
    intro k hk
    have hk' : (k : ℝ) ≤ 5 := by exact_mod_cast hk
    have := Real.pi_pos
    refine (Real.cos_pos_of_mem_Ioo ⟨?_, ?_⟩).ne' <;> unfold radians
    · have : 0 ≤ (k : ℝ) * (Real.pi / 180) := by positivity
      linarith
    · nlinarith
  obtain ⟨r0, e0, h0⟩ := row_in 0 0 (hc 0 (by omega))
  obtain ⟨r1, e1, h1⟩ := row_in 1 1 (hc 1 (by omega))
  obtain ⟨r2, e2, h2⟩ := row_in 2 1 (hc 2 (by omega))
  obtain ⟨r3, e3, h3⟩ := row_in 3 1 (hc 3 (by omega))
  obtain ⟨r4, e4, h4⟩ := row_in 4 1 (hc 4 (by omega))
  obtain ⟨r5, e5, h5⟩ := row_in 5 1 (hc 5 (by omega))
  norm_num at e0 e1 e2 e3 e4 e5
  refine ⟨[r0, r1, r2, r3, r4, r5], ?_, ?_⟩
  · simp [rows, row, index, List.range, List.range.loop]
    norm_num
    have hb : ∀ {α β : Type} (x : α) (f : α → Except PyError β), ((Except.ok x : Except PyError α) >>= f) = f x :=
      fun _ _ => rfl
    simp only [hb, e0, e1, e2, e3, e4, e5]
    rfl
  · exact .cons (forall_near h0 (by decide +kernel)) <| .cons (forall_near h1 (by decide +kernel)) <|
      .cons (forall_near h2 (by decide +kernel)) <| .cons (forall_near h3 (by decide +kernel)) <|
      .cons (forall_near h4 (by decide +kernel)) <| .cons (forall_near h5 (by decide +kernel)) .nil

end Verif.Generator
