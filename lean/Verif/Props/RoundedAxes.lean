import Verif.Props.RoundedYaw
import Verif.Grid

/-
Which attitudes pass `is_so_n` and `is_orthogonal` in binary32, by the elements of their rotation matrix (C135).
-/

set_option linter.unusedSectionVars false
set_option linter.unusedSimpArgs false
set_option linter.unusedVariables false

namespace Verif
open Scalar Finset Rounded

theorem prod_pert7 {a b p q : ℝ} (hp : |p| ≤ 1) (hq : |q| ≤ 1) (ha : |a - p| ≤ 1 / 10 ^ 7) (hb : |b - q| ≤ 1 / 10 ^ 7) :
    |a * b - p * q| ≤ 200001 / 10 ^ 12 := by
  rw [show a * b - p * q = p * (b - q) + (a - p) * q + (a - p) * (b - q) by ring]
  have h1 := mul_le_of hp hb
  have h2 := mul_le_of ha hq
  have h3 := mul_le_of ha hb
  refine (abs_add_le _ _).trans ((add_le_add ((abs_add_le _ _).trans (add_le_add h1 h2)) h3).trans ?_)
  norm_num

theorem quat_parts (u : Quaternion ℝ) : |u.re| ≤ ‖u‖ ∧ |u.imI| ≤ ‖u‖ ∧ |u.imJ| ≤ ‖u‖ ∧ |u.imK| ≤ ‖u‖ := by
  have hn : ‖u‖ ^ 2 = u.re ^ 2 + u.imI ^ 2 + u.imJ ^ 2 + u.imK ^ 2 := by
    rw [← Quaternion.normSq_def', Quaternion.normSq_eq_norm_mul_self, sq]
  refine ⟨?_, ?_, ?_, ?_⟩ <;> refine abs_le_of_sq_le_sq ?_ (norm_nonneg _) <;> rw [hn] <;> nlinarith [sq_nonneg u.re, sq_nonneg u.imI, sq_nonneg u.imJ, sq_nonneg u.imK]

/-- The rotation matrix of a perturbed unit quaternion. -/
theorem dcm_pert7 {q p : Quaternion ℝ} (hp : ‖p‖ = 1) (h : ‖q - p‖ ≤ 1 / 10 ^ 7) (i j : Nat) (hi : i < 3) (hj : j < 3) :
    |dcmOf q i j - dcmOf p i j| ≤ 8001 / 10 ^ 10 := by
  obtain ⟨p0, p1, p2, p3⟩ := quat_parts p
  obtain ⟨d0, d1, d2, d3⟩ := quat_parts (q - p)
  rw [hp] at p0 p1 p2 p3
  have d0 := d0.trans h
  have d1 := d1.trans h
  have d2 := d2.trans h
  have d3 := d3.trans h
  simp only [Quaternion.re_sub, Quaternion.imI_sub, Quaternion.imJ_sub, Quaternion.imK_sub] at d0 d1 d2 d3
  have m00 := prod_pert7 p0 p0 d0 d0
  have m01 := prod_pert7 p0 p1 d0 d1
  have m02 := prod_pert7 p0 p2 d0 d2
  have m03 := prod_pert7 p0 p3 d0 d3
  have m11 := prod_pert7 p1 p1 d1 d1
  have m12 := prod_pert7 p1 p2 d1 d2
  have m13 := prod_pert7 p1 p3 d1 d3
  have m22 := prod_pert7 p2 p2 d2 d2
  have m23 := prod_pert7 p2 p3 d2 d3
  have m33 := prod_pert7 p3 p3 d3 d3
  have hi : i = 0 ∨ i = 1 ∨ i = 2 := by omega
  have hj : j = 0 ∨ j = 1 ∨ j = 2 := by omega
  clear d0 d1 d2 d3 p0 p1 p2 p3 h hp
  rw [abs_le] at m00 m01 m02 m03 m11 m12 m13 m22 m23 m33
  rcases hi with rfl | rfl | rfl <;> rcases hj with rfl | rfl | rfl <;> simp [dcmOf, tbl] <;> rw [abs_le] <;>
    norm_num at m00 m01 m02 m03 m11 m12 m13 m22 m23 m33 <;> constructor <;> linarith

/-- The minors of the first two columns of a rotation matrix are the elements of its third column. -/
theorem dcm_minor {p : Quaternion ℝ} (hp : ‖p‖ = 1) {q i j : Nat} {σ : ℝ}
    (hq : (q = 0 ∧ i = 1 ∧ j = 2 ∧ σ = -1) ∨ (q = 1 ∧ i = 0 ∧ j = 2 ∧ σ = 1) ∨ (q = 2 ∧ i = 1 ∧ j = 0 ∧ σ = 1)) :
    dcmOf p q 0 * dcmOf p j 1 - dcmOf p q 1 * dcmOf p j 0 = σ * dcmOf p i 2 ∧
    dcmOf p q 0 * dcmOf p i 1 - dcmOf p q 1 * dcmOf p i 0 = -σ * dcmOf p j 2 := by
  have h : p.re ^ 2 + p.imI ^ 2 + p.imJ ^ 2 + p.imK ^ 2 = 1 := by
    rw [← Quaternion.normSq_def', Quaternion.normSq_eq_norm_mul_self, hp, mul_one]
  rcases hq with ⟨rfl, rfl, rfl, rfl⟩ | ⟨rfl, rfl, rfl, rfl⟩ | ⟨rfl, rfl, rfl, rfl⟩ <;>
    simp only [dcmOf, tbl, List.getD_cons_zero, List.getD_cons_succ] <;>
    generalize p.re = w at * <;> generalize p.imI = x at * <;> generalize p.imJ = y at * <;> generalize p.imK = z at *
  · exact ⟨by linear_combination (-(2 * (y * z - w * x))) * h,
      by linear_combination (w ^ 2 - x ^ 2 - y ^ 2 + z ^ 2 - (w * w + x * x - y * y - z * z) + 1) * h⟩
  · exact ⟨by linear_combination (2 * (x * z + w * y) + 2 * (x * z - w * y)) * h,
      by linear_combination (-(w ^ 2 - x ^ 2 - y ^ 2 + z ^ 2) + (w * w + x * x - y * y - z * z) - 1) * h⟩
  · exact ⟨by linear_combination (2 * (y * z - w * x)) * h,
      by linear_combination (-(2 * (x * z + w * y)) - 2 * (x * z - w * y)) * h⟩

section
variable {F : Type} [Scalar F] [R : Rounded F] {a : Mat F} {A : Nat → Nat → F}

theorem singular_all {m : Mat F} (hS : m.det = .error (.err .Singular)) :
    m.isSoN = .error (.err .Singular) ∧ m.isOrthogonal = .error (.err .Singular) ∧ m.log = .error (.err .Singular) ∧
      Mat.logInPlace m = (.error (.err .Singular), m) ∧ Mat.adjugateInPlace m = (.error (.err .Singular), m) := by
  have s1 : m.isSoN = .error (.err .Singular) := by unfold Mat.isSoN; rw [hS]; rfl
  refine ⟨s1, by unfold Mat.isOrthogonal; rw [hS]; rfl, by unfold Mat.log; rw [s1]; rfl, ?_, ?_⟩
  · unfold Mat.logInPlace
    simp only [Op.get_bind, s1]
    rfl
  · unfold Mat.adjugateInPlace
    simp only [Op.get_bind, s1]
    rfl

theorem accept_of (ha : MatIs a 3 3 A) (hfin : ∀ i j, i < 3 → j < 3 → Finite (A i j))
    (hg : ∀ i j, i < 3 → j < 3 → |∑ k ∈ range 3, ⟪A i k⟫ * ⟪A j k⟫ - if i = j then 1 else 0| ≤ 4 / 10 ^ 5)
    (hp : ∀ q, q < 3 → (∀ k, k < 3 → ⟪A k 0⟫ ≤ ⟪A q 0⟫) → 1 / 8 ≤ |⟪A q 0⟫|) (hdet : 0 < det3 A)
    (hns : a.det ≠ .error (.err .Singular)) : a.isSoN = .ok true ∧ a.isOrthogonal = .ok true := by
  have hb := elem_le (n := 3) (A := A) (e := 4 / 10 ^ 5) (by norm_num) hg
  rcases C122_accept ha hfin hg hp with ⟨h1, -⟩ | ⟨h1, h2⟩
  · exfalso
    obtain ⟨q, hq, -, ⟨h3, -⟩ | ⟨d, h3, h4, -⟩⟩ := C122_det ha hfin hb
    · exact hns h3
    · obtain ⟨b, e4, -, -⟩ := mulT_run ha hfin (fun i j hi hj => (hb i j hi hj).trans (by norm_num))
      obtain ⟨s1, -⟩ := soN_of h3 h4 ha.rows_eq e4
      rw [s1] at h1
      cases h1
  · refine ⟨h2.trans ?_, h1⟩
    rw [decide_eq_true]
    exact hdet

/-- The matrix of a quaternion within 10⁻⁷ of a unit one. -/
theorem dcm_of_unit {v : Vec F} {f : Nat → F} {p : Quaternion ℝ} (hv : VecIs v 4 f) (hf : ∀ i, i < 4 → Finite (f i))
    (hp : ‖p‖ = 1) (h : ‖qval f - p‖ ≤ 1 / 10 ^ 7) :
    ∃ m D, Quat.convertToDcm v = .ok m ∧ MatIs m 3 3 D ∧ (∀ i j, i < 3 → j < 3 → Finite (D i j)) ∧
      (∀ i j, i < 3 → j < 3 → |∑ k ∈ range 3, ⟪D i k⟫ * ⟪D j k⟫ - if i = j then 1 else 0| ≤ 4 / 10 ^ 5) ∧
      0 < det3 D ∧ ∀ i j, i < 3 → j < 3 → |⟪D i j⟫ - dcmOf p i j| ≤ 19 / 10 ^ 7 := by
  have hn : NearUnit f := by
    unfold NearUnit
    have := abs_norm_sub_norm_le (qval f) p
    rw [hp] at this
    exact this.trans (h.trans (by norm_num))
  have hn' := abs_le.mp hn
  obtain ⟨m, D, e, hm, hfin, hg, hpos, -⟩ := C122_dcm hv hf hn
  obtain ⟨m', D', e', hm', hD⟩ := C88_dcm hv hf (by norm_num at hn' ⊢; linarith [hn'.2])
  obtain rfl : m' = m := by rw [e] at e'; cases e'; rfl
  refine ⟨m', D, e, hm, hfin, fun i j hi hj => (hg i j hi hj).trans (by norm_num), hpos, fun i j hi hj => ?_⟩
  have hDD : D' i j = D i j := Except.ok.inj ((hm'.get i j hi hj).symm.trans (hm.get i j hi hj))
  have h1 := (hD i j hi hj).2
  rw [hDD] at h1
  have h2 := dcm_pert7 hp h i j hi hj
  have hδ : ‖qval f‖ ^ 2 ≤ 1 + 201 / 10 ^ 8 := by
    norm_num at hn' ⊢
    nlinarith [hn'.1, hn'.2, norm_nonneg (qval f)]
  have h3 := abs_sub_le ⟪D i j⟫ (dcmOf (qval f) i j) (dcmOf p i j)
  norm_num at h1 h2 hδ ⊢
  linarith

/-- C135: which attitudes pass.  Let `R` be the rotation matrix of the unit quaternion `p`, `q` the row of the largest
element of its first column, `i` and `j` the other rows in the order in which the program meets them.  The program compares
`R i 0` with `± R i 2`, and on the outcome all hangs on `R i 2` or on `R j 2`: small, it fails with `Singular`; else
`is_so_n` answers `true`. -/
theorem C135_rotation {v : Vec F} {f : Nat → F} {p : Quaternion ℝ} {q i j t : Nat} {σ : ℝ} (hv : VecIs v 4 f)
    (hf : ∀ i, i < 4 → Finite (f i)) (hp : ‖p‖ = 1) (h : ‖qval f - p‖ ≤ 1 / 10 ^ 7)
    (hq : (q = 0 ∧ i = 1 ∧ j = 2 ∧ σ = -1) ∨ (q = 1 ∧ i = 0 ∧ j = 2 ∧ σ = 1) ∨ (q = 2 ∧ i = 1 ∧ j = 0 ∧ σ = 1))
    (hmax : ∀ k, k < 3 → k ≠ q → dcmOf p k 0 + 4 / 10 ^ 6 ≤ dcmOf p q 0) (hbig : 1 / 7 ≤ dcmOf p q 0)
    (ht : (t = i ∧ dcmOf p i 0 + 12 / 10 ^ 6 ≤ σ * dcmOf p i 2) ∨ (t = j ∧ σ * dcmOf p i 2 + 12 / 10 ^ 6 ≤ dcmOf p i 0)) :
    ∃ m, Quat.convertToDcm v = .ok m ∧
      (|dcmOf p t 2| + 1 / 10 ^ 5 ≤ 999 / 10 ^ 7 * dcmOf p q 0 →
        m.det = .error (.err .Singular) ∧ m.isSoN = .error (.err .Singular) ∧ m.isOrthogonal = .error (.err .Singular) ∧
        m.log = .error (.err .Singular) ∧ Mat.logInPlace m = (.error (.err .Singular), m) ∧
        Mat.adjugateInPlace m = (.error (.err .Singular), m)) ∧
      (112 / 10 ^ 6 ≤ |dcmOf p t 2| → m.isSoN = .ok true ∧ m.isOrthogonal = .ok true) := by
  obtain ⟨m, D, e, hm, hfin, hg, hpos, hD⟩ := dcm_of_unit hv hf hp h
  have hb := elem_le (n := 3) (A := D) (e := 4 / 10 ^ 5) (by norm_num) hg
  have hq3 : q < 3 := by omega
  have hi3 : i < 3 := by omega
  have hj3 : j < 3 := by omega
  have hq' : (q = 0 ∧ i = 1 ∧ j = 2) ∨ (q = 1 ∧ i = 0 ∧ j = 2) ∨ (q = 2 ∧ i = 1 ∧ j = 0) := by
    rcases hq with ⟨rfl, rfl, rfl, -⟩ | ⟨rfl, rfl, rfl, -⟩ | ⟨rfl, rfl, rfl, -⟩ <;> simp
  have hσ : |σ| = 1 := by
    rcases hq with ⟨-, -, -, rfl⟩ | ⟨-, -, -, rfl⟩ | ⟨-, -, -, rfl⟩ <;> simp
  obtain ⟨M1, M2⟩ := dcm_minor hp hq
  -- the minors of the rounded matrix
  have hR : ∀ i j, i < 3 → j < 3 → |dcmOf p i j| ≤ 1002 / 1000 := fun i j hi hj => by
    have h1 := abs_sub_abs_le_abs_sub (dcmOf p i j) ⟪D i j⟫
    have h2 := hD i j hi hj
    have h3 := hb i j hi hj
    rw [abs_sub_comm] at h2
    norm_num at h2 ⊢
    linarith
  have hN : ∀ k, k < 3 → |(⟪D q 0⟫ * ⟪D k 1⟫ - ⟪D q 1⟫ * ⟪D k 0⟫) - (dcmOf p q 0 * dcmOf p k 1 - dcmOf p q 1 * dcmOf p k 0)| ≤ 8 / 10 ^ 6 := by
    intro k hk
    have m1 := mul_le_of (hD q 0 hq3 (by omega)) (hb k 1 hk (by omega))
    have m2 := mul_le_of (hR q 0 hq3 (by omega)) (hD k 1 hk (by omega))
    have m3 := mul_le_of (hD q 1 hq3 (by omega)) (hb k 0 hk (by omega))
    have m4 := mul_le_of (hR q 1 hq3 (by omega)) (hD k 0 hk (by omega))
    rw [abs_le] at *
    norm_num at m1 m2 m3 m4 ⊢
    constructor <;> linarith [m1.1, m1.2, m2.1, m2.2, m3.1, m3.2, m4.1, m4.2]
  have dq := abs_le.mp (hD q 0 hq3 (by omega))
  have di := abs_le.mp (hD i 0 hi3 (by omega))
  have hbig' : 1 / 8 ≤ ⟪D q 0⟫ := by norm_num at dq hbig ⊢; linarith [dq.1]
  have hlt : ∀ k, k < 3 → k ≠ q → ⟪D k 0⟫ < ⟪D q 0⟫ := fun k hk hkq => by
    have h1 := hmax k hk hkq
    have h2 := abs_le.mp (hD k 0 hk (by omega))
    norm_num at h1 h2 dq
    linarith [h2.2, dq.1]
  have hle : ∀ k, k < 3 → ⟪D k 0⟫ ≤ ⟪D q 0⟫ := fun k hk => by
    by_cases hkq : k = q
    · rw [hkq]
    · exact (hlt k hk hkq).le
  have hNj := hN j hj3
  rw [M1] at hNj
  obtain ⟨s, hs, hs3, hst⟩ : ∃ s, ((s = j ∧ ⟪D i 0⟫ + 1 / 10 ^ 6 ≤ ⟪D q 0⟫ * ⟪D j 1⟫ - ⟪D q 1⟫ * ⟪D j 0⟫) ∨
      (s = i ∧ ⟪D q 0⟫ * ⟪D j 1⟫ - ⟪D q 1⟫ * ⟪D j 0⟫ + 1 / 10 ^ 6 ≤ ⟪D i 0⟫)) ∧ s < 3 ∧
      |dcmOf p q 0 * dcmOf p s 1 - dcmOf p q 1 * dcmOf p s 0| = |dcmOf p t 2| := by
    rw [abs_le] at hNj
    rcases ht with ⟨rfl, h1⟩ | ⟨rfl, h1⟩
    · refine ⟨j, .inl ⟨rfl, ?_⟩, hj3, by rw [M1, abs_mul, hσ, one_mul]⟩
      norm_num at hNj h1 di ⊢
      linarith [hNj.1, di.2]
    · refine ⟨i, .inr ⟨rfl, ?_⟩, hi3, by rw [M2, abs_mul, abs_neg, hσ, one_mul]⟩
      norm_num at hNj h1 di ⊢
      linarith [hNj.2, di.1]
  obtain ⟨k1, k2⟩ := C134_det hm hfin hb hq' hle (fun k hk => hlt k (by omega) (by omega)) (by norm_num; linarith) hs
  have hNs := hN s hs3
  refine ⟨m, e, fun h1 => ?_, fun h1 => ?_⟩
  · have hS : m.det = .error (.err .Singular) := by
      refine k1 ?_
      have h2 := abs_sub_abs_le_abs_sub (⟪D q 0⟫ * ⟪D s 1⟫ - ⟪D q 1⟫ * ⟪D s 0⟫) (dcmOf p q 0 * dcmOf p s 1 - dcmOf p q 1 * dcmOf p s 0)
      rw [hst] at h2
      norm_num at h1 h2 hNs dq ⊢
      linarith [dq.1]
    exact ⟨hS, singular_all hS⟩
  · obtain ⟨d, hd, -⟩ := k2 (by
      have h2 := abs_sub_abs_le_abs_sub (dcmOf p q 0 * dcmOf p s 1 - dcmOf p q 1 * dcmOf p s 0) (⟪D q 0⟫ * ⟪D s 1⟫ - ⟪D q 1⟫ * ⟪D s 0⟫)
      rw [hst] at h2
      rw [abs_sub_comm] at hNs
      norm_num at h1 h2 hNs ⊢
      linarith)
    refine accept_of hm hfin hg (fun q' hq' hmax' => ?_) hpos (by rw [hd]; simp)
    have := hmax' q hq3
    rw [abs_of_pos (by linarith)]
    linarith

/-- C135: rolls.  For a quaternion within 10⁻⁷ of the one of a turn by `θ` about the first axis: a small positive roll is
refused, and so is one near -90 degrees; `is_so_n` answers `true` for the others. -/
theorem C135_roll {v : Vec F} {f : Nat → F} {θ : ℝ} (hv : VecIs v 4 f)
    (hf : ∀ i, i < 4 → Finite (f i)) (h : ‖qval f - mkQ (Real.cos (θ / 2)) (Real.sin (θ / 2)) 0 0‖ ≤ 1 / 10 ^ 7) :
    (12 / 10 ^ 6 ≤ Real.sin θ → Real.sin θ ≤ 898 / 10 ^ 7 →
      (Quat.convertToDcm v >>= fun m => m.isSoN) = .error (.err .Singular)) ∧
    (112 / 10 ^ 6 ≤ Real.sin θ → (Quat.convertToDcm v >>= fun m => m.isSoN) = .ok true) ∧
    (Real.sin θ ≤ -(12 / 10 ^ 6) → |Real.cos θ| ≤ 898 / 10 ^ 7 →
      (Quat.convertToDcm v >>= fun m => m.isSoN) = .error (.err .Singular)) ∧
    (Real.sin θ ≤ -(12 / 10 ^ 6) → 112 / 10 ^ 6 ≤ |Real.cos θ| →
      (Quat.convertToDcm v >>= fun m => m.isSoN) = .ok true) := by
  have hc : Real.cos θ = 1 - 2 * Real.sin (θ / 2) ^ 2 := by
    rw [← Real.cos_two_mul_eq_one_sub, mul_div_cancel₀ θ (by norm_num)]
  have hs : Real.sin θ = 2 * Real.cos (θ / 2) * Real.sin (θ / 2) := by
    rw [mul_right_comm, ← Real.sin_two_mul, mul_div_cancel₀ θ (by norm_num)]
  have hsq := Real.sin_sq_add_cos_sq (θ / 2)
  have hp : ‖mkQ (Real.cos (θ / 2)) (Real.sin (θ / 2)) 0 0‖ = 1 := by
    rw [norm_mkQ, show Real.cos (θ / 2) ^ 2 + Real.sin (θ / 2) ^ 2 + 0 ^ 2 + 0 ^ 2 = 1 by linarith, Real.sqrt_one]
  generalize Real.cos (θ / 2) = c at *
  generalize Real.sin (θ / 2) = s at *
  have r00 : dcmOf (mkQ c s 0 0) 0 0 = 1 := by simp [dcmOf, tbl, mkQ]; linarith
  have r10 : dcmOf (mkQ c s 0 0) 1 0 = 0 := by simp [dcmOf, tbl, mkQ]
  have r20 : dcmOf (mkQ c s 0 0) 2 0 = 0 := by simp [dcmOf, tbl, mkQ]
  have r12 : dcmOf (mkQ c s 0 0) 1 2 = -Real.sin θ := by simp [dcmOf, tbl, mkQ, hs]; ring
  have r22 : dcmOf (mkQ c s 0 0) 2 2 = Real.cos θ := by simp [dcmOf, tbl, mkQ, hc]; ring
  have main : ∀ t, ((t = 1 ∧ 12 / 10 ^ 6 ≤ Real.sin θ) ∨ (t = 2 ∧ Real.sin θ ≤ -(12 / 10 ^ 6))) → _ := fun t ht =>
    C135_rotation (q := 0) (i := 1) (j := 2) (σ := -1) (t := t) hv hf hp h (.inl ⟨rfl, rfl, rfl, rfl⟩)
      (fun k hk hk' => by
        rcases (show k = 1 ∨ k = 2 by omega) with rfl | rfl
        · rw [r10, r00]; norm_num
        · rw [r20, r00]; norm_num)
      (by rw [r00]; norm_num)
      (by rw [r10, r12]; rcases ht with ⟨ht, h1⟩ | ⟨ht, h1⟩
          · exact .inl ⟨ht, by linarith⟩
          · exact .inr ⟨ht, by linarith⟩)
  refine ⟨fun h1 h2 => ?_, fun h1 => ?_, fun h1 h2 => ?_, fun h1 h2 => ?_⟩
  · obtain ⟨m, e, k, -⟩ := main 1 (.inl ⟨rfl, h1⟩)
    rw [e, Res.ok_bind]
    refine (k ?_).2.1
    rw [r12, r00, abs_neg, abs_of_nonneg (le_trans (by norm_num) h1)]
    norm_num at h2 ⊢
    linarith
  · obtain ⟨m, e, -, k⟩ := main 1 (.inl ⟨rfl, le_trans (by norm_num) h1⟩)
    rw [e, Res.ok_bind]
    refine (k ?_).1
    rw [r12, abs_neg]
    exact h1.trans (le_abs_self _)
  · obtain ⟨m, e, k, -⟩ := main 2 (.inr ⟨rfl, h1⟩)
    rw [e, Res.ok_bind]
    refine (k ?_).2.1
    rw [r22, r00]
    norm_num at h2 ⊢
    linarith
  · obtain ⟨m, e, -, k⟩ := main 2 (.inr ⟨rfl, h1⟩)
    rw [e, Res.ok_bind]
    refine (k ?_).1
    rw [r22]
    exact h2

/-! ### Turns about the second axis -/

section
variable [G : Grid F]

theorem zero_of_near {x : F} {y : ℝ} (hg : ⟪x⟫ = 0 ∨ 1 / 2 ^ 149 ≤ |⟪x⟫|) (h : Near ⟪x⟫ y) (hy : y = 0) : ⟪x⟫ = 0 := by
  rcases hg with hg | hg
  · exact hg
  · exfalso
    have := h.bound
    rw [hy, sub_zero, abs_zero, zero_div, zero_add, rη_eq] at this
    norm_num at this hg
    linarith

theorem mul_zero32 {x y : F} (hx : Finite x) (hy : Finite y) (h : ⟪x⟫ = 0 ∨ ⟪y⟫ = 0) : Finite (x *ᶠ y) ∧ ⟪x *ᶠ y⟫ = 0 := by
  have h0 : ⟪x⟫ * ⟪y⟫ = 0 := mul_eq_zero.mpr h
  have hf : Finite (x *ᶠ y) := R.mul_finite hx hy (by rw [h0]; norm_num)
  exact ⟨hf, zero_of_near (G.mul_grid hx hy hf) (R.mul_near hx hy hf) h0⟩

theorem add_zero32 {x y : F} (hx : Finite x ∧ ⟪x⟫ = 0) (hy : Finite y ∧ ⟪y⟫ = 0) : Finite (x +ᶠ y) ∧ ⟪x +ᶠ y⟫ = 0 := by
  have h0 : ⟪x⟫ + ⟪y⟫ = 0 := by rw [hx.2, hy.2]; norm_num
  have hf : Finite (x +ᶠ y) := R.add_finite hx.1 hy.1 (by rw [h0]; norm_num)
  exact ⟨hf, zero_of_near (G.add_grid hx.1 hy.1 hf) (R.add_near hx.1 hy.1 hf) h0⟩

theorem sub_zeros32 {x y : F} (hx : Finite x ∧ ⟪x⟫ = 0) (hy : Finite y ∧ ⟪y⟫ = 0) : Finite (x -ᶠ y) ∧ ⟪x -ᶠ y⟫ = 0 := by
  have h0 : ⟪x⟫ - ⟪y⟫ = 0 := by rw [hx.2, hy.2]; norm_num
  have hf : Finite (x -ᶠ y) := R.sub_finite hx.1 hy.1 (by rw [h0]; norm_num)
  exact ⟨hf, zero_of_near (G.sub_grid hx.1 hy.1 hf) (R.sub_near hx.1 hy.1 hf) h0⟩

theorem div_zero32 {x y : F} (hx : Finite x ∧ ⟪x⟫ = 0) (hy : Finite y) (hne : ⟪y⟫ ≠ 0) : Finite (x /ᶠ y) ∧ ⟪x /ᶠ y⟫ = 0 := by
  have h0 : ⟪x⟫ / ⟪y⟫ = 0 := by rw [hx.2, zero_div]
  have hf : Finite (x /ᶠ y) := R.div_finite hx.1 hy hne (by rw [h0]; norm_num)
  exact ⟨hf, zero_of_near (G.div_grid hx.1 hy hne hf) (R.div_near hx.1 hy hne hf) h0⟩

/-- C135: pitches.  For a quaternion `(w, 0, y, 0)` within 10⁻⁷ of the one of a turn by `θ` about the second axis:
`is_so_n` answers `true` when `cos θ` or `-sin θ` is at least 1/7, and fails with `Singular` when neither exceeds 9·10⁻⁵. -/
theorem C135_pitch {v : Vec F} {f : Nat → F} {θ : ℝ} (hv : VecIs v 4 f) (hf : ∀ i, i < 4 → Finite (f i))
    (h : ‖qval f - mkQ (Real.cos (θ / 2)) 0 (Real.sin (θ / 2)) 0‖ ≤ 1 / 10 ^ 7) (hx : ⟪f 1⟫ = 0) (hz : ⟪f 3⟫ = 0) :
    ((1 / 7 ≤ Real.cos θ ∨ Real.sin θ ≤ -(1 / 7)) → (Quat.convertToDcm v >>= fun m => m.isSoN) = .ok true) ∧
    (Real.cos θ ≤ 9 / 10 ^ 5 → -(9 / 10 ^ 5) ≤ Real.sin θ →
      (Quat.convertToDcm v >>= fun m => m.isSoN) = .error (.err .Singular)) := by
  have hc : Real.cos θ = 1 - 2 * Real.sin (θ / 2) ^ 2 := by
    rw [← Real.cos_two_mul_eq_one_sub, mul_div_cancel₀ θ (by norm_num)]
  have hs : Real.sin θ = 2 * Real.cos (θ / 2) * Real.sin (θ / 2) := by
    rw [mul_right_comm, ← Real.sin_two_mul, mul_div_cancel₀ θ (by norm_num)]
  have hsq := Real.sin_sq_add_cos_sq (θ / 2)
  have hp : ‖mkQ (Real.cos (θ / 2)) 0 (Real.sin (θ / 2)) 0‖ = 1 := by
    rw [norm_mkQ, show Real.cos (θ / 2) ^ 2 + 0 ^ 2 + Real.sin (θ / 2) ^ 2 + 0 ^ 2 = 1 by linarith, Real.sqrt_one]
  generalize Real.cos (θ / 2) = c at *
  generalize Real.sin (θ / 2) = s at *
  have r00 : dcmOf (mkQ c 0 s 0) 0 0 = Real.cos θ := by simp [dcmOf, tbl, mkQ, hc]; linarith
  have r20 : dcmOf (mkQ c 0 s 0) 2 0 = -Real.sin θ := by simp [dcmOf, tbl, mkQ, hs]; ring
  have r11 : dcmOf (mkQ c 0 s 0) 1 1 = 1 := by simp [dcmOf, tbl, mkQ]
  obtain ⟨m, D, e, hm, hfin, hg, hpos, hD⟩ := dcm_of_unit hv hf hp h
  have hn : ‖qval f‖ ≤ 2 ^ 60 := by
    have := norm_sub_norm_le (qval f) (mkQ c 0 s 0)
    rw [hp] at this
    norm_num at h ⊢
    linarith
  obtain ⟨m', D', e', hm', -, -, e21, e01, e10⟩ := dcm_yaw_entries hv hf hn
  obtain rfl : m' = m := by rw [e] at e'; cases e'; rfl
  have hDD : ∀ i j, i < 3 → j < 3 → D' i j = D i j := fun i j hi hj =>
    Except.ok.inj ((hm'.get i j hi hj).symm.trans (hm.get i j hi hj))
  rw [hDD _ _ (by omega) (by omega)] at e21 e01 e10
  obtain ⟨fw, f1, f2, f3⟩ := forall_lt_four.mp hf
  have z21 : ⟪D 2 1⟫ = 0 := by
    rw [e21]
    have := add_zero32 (mul_zero32 fw f1 (.inr hx)) (mul_zero32 f2 f3 (.inr hz))
    exact (mul_zero32 R.two_finite this.1 (.inr this.2)).2
  have z01 : ⟪D 0 1⟫ = 0 := by
    rw [e01]
    have := sub_zeros32 (mul_zero32 f1 f2 (.inl hx)) (mul_zero32 fw f3 (.inr hz))
    exact (mul_zero32 R.two_finite this.1 (.inr this.2)).2
  have z10 : ⟪D 1 0⟫ = 0 := by
    rw [e10]
    have := add_zero32 (mul_zero32 f1 f2 (.inl hx)) (mul_zero32 fw f3 (.inr hz))
    exact (mul_zero32 R.two_finite this.1 (.inr this.2)).2
  have hb := elem_le (n := 3) (A := D) (e := 4 / 10 ^ 5) (by norm_num) hg
  obtain ⟨el, eu⟩ := eps_bounds (F := F)
  have d00 := hD 0 0 (by omega) (by omega)
  have d20 := hD 2 0 (by omega) (by omega)
  have d11 := hD 1 1 (by omega) (by omega)
  rw [r00, abs_le] at d00
  rw [r20, abs_le] at d20
  rw [r11, abs_le] at d11
  obtain ⟨q, i, j, hq, hmax, hfirst⟩ := first_max (fun k => ⟪D k 0⟫)
  have m0 : ⟪D 0 0⟫ ≤ ⟪D q 0⟫ := hmax 0 (by omega)
  have m1 : ⟪D 1 0⟫ ≤ ⟪D q 0⟫ := hmax 1 (by omega)
  have m2 : ⟪D 2 0⟫ ≤ ⟪D q 0⟫ := hmax 2 (by omega)
  rw [e, Res.ok_bind]
  refine ⟨fun h1 => ?_, fun h1 h2 => ?_⟩
  · have hbig : 1 / 8 ≤ ⟪D q 0⟫ := by
      norm_num at d00 d20
      rcases h1 with h1 | h1
      · linarith [d00.1]
      · linarith [d20.1]
    have hq' : (q = 0 ∧ i = 1 ∧ j = 2) ∨ (q = 2 ∧ i = 1 ∧ j = 0) := by
      rcases hq with h' | ⟨rfl, -, -⟩ | h'
      · exact .inl h'
      · rw [z10] at hbig
        norm_num at hbig
      · exact .inr h'
    have hi : i = 1 := by omega
    subst hi
    have hq3 : q < 3 := by omega
    have hj3 : j < 3 := by omega
    have hne : ⟪D q 0⟫ ≠ 0 := by linarith
    have zq1 : ⟪D q 1⟫ = 0 := by rcases hq' with ⟨rfl, -, rfl⟩ | ⟨rfl, -, rfl⟩ <;> assumption
    have zj1 : ⟪D j 1⟫ = 0 := by rcases hq' with ⟨rfl, -, rfl⟩ | ⟨rfl, -, rfl⟩ <;> assumption
    have x0 := (div_zero32 ⟨hfin 1 0 (by omega) (by omega), z10⟩ (hfin q 0 hq3 (by omega)) hne).2
    have y0 : ⟪left1 D q j 1⟫ = 0 := by
      have g : Finite (D j 0 /ᶠ D q 0) := R.div_finite (hfin j 0 hj3 (by omega)) (hfin q 0 hq3 (by omega)) hne (by
        rw [abs_div, div_le_iff₀ (abs_pos.mpr hne), abs_of_pos (show 0 < ⟪D q 0⟫ by linarith)]
        have := hb j 0 hj3 (by omega)
        norm_num
        linarith)
      exact (sub_zeros32 ⟨hfin j 1 hj3 (by omega), zj1⟩ (mul_zero32 (hfin q 1 hq3 (by omega)) g (.inl zq1))).2
    refine (accept_of hm hfin hg (fun q' hq' hmax' => ?_) hpos ?_).1
    · have := hmax' q hq3
      rw [abs_of_pos (by linarith)]
      linarith
    · rcases det3_acc hm hfin hb hq hmax hfirst with ⟨h3, -⟩ | ⟨-, s', hs1, ⟨h3, -⟩ | ⟨d, h3, -⟩⟩
      · rw [abs_of_pos (by linarith)] at h3
        norm_num at eu
        linarith
      · exfalso
        rcases hs1 with ⟨rfl, -⟩ | ⟨-, h4⟩
        · rw [zq1, zero_mul, sub_zero, abs_mul, abs_of_pos (by linarith), abs_of_pos (by norm_num at d11; linarith [d11.1])] at h3
          norm_num at d11 h3
          nlinarith [d11.1]
        · rw [x0, y0] at h4
          exact lt_irrefl _ h4
      · rw [h3]
        simp
  · have hS : m'.det = .error (.err .Singular) := by
      refine (det3_run hm hfin hq hmax hfirst).1 ?_
      rw [abs_of_nonneg (by rw [← z10]; exact m1)]
      norm_num at d00 d20 el h1 h2
      rcases hq with ⟨rfl, -, -⟩ | ⟨rfl, -, -⟩ | ⟨rfl, -, -⟩
      · linarith [d00.2]
      · rw [z10]
        linarith
      · linarith [d20.2]
    exact (singular_all hS).1

end

end

/-! ### Cases -/

theorem fvec_near (a b c d : ℚ) {a' b' c' d' : ℝ} (h : F32.fl (.fin a) = ⟨.fin a⟩ ∧ F32.fl (.fin b) = ⟨.fin b⟩ ∧
      F32.fl (.fin c) = ⟨.fin c⟩ ∧ F32.fl (.fin d) = ⟨.fin d⟩)
    (hn : ((a : ℝ) - a') ^ 2 + ((b : ℝ) - b') ^ 2 + ((c : ℝ) - c') ^ 2 + ((d : ℝ) - d') ^ 2 ≤ (1 / 10 ^ 7) ^ 2) :
    ‖qval (fun i => (lit ([a, b, c, d].getD i 0) : F32)) - mkQ a' b' c' d'‖ ≤ 1 / 10 ^ 7 := by
  unfold qval
  simp only [List.getD_cons_zero, List.getD_cons_succ]
  rw [lit_val _ h.1, lit_val _ h.2.1, lit_val _ h.2.2.1, lit_val _ h.2.2.2]
  change ‖mkQ ((a : ℝ) - a') ((b : ℝ) - b') ((c : ℝ) - c') ((d : ℝ) - d')‖ ≤ _
  rw [norm_mkQ, Real.sqrt_le_left (by norm_num)]
  exact hn

/-- `C135_rotation` for the turn by 120 degrees about the diagonal: the second row is the pivot. -/
example : ∃ m, Quat.convertToDcm (fvec [1 / 2, 1 / 2, 1 / 2, 1 / 2]) = .ok m ∧ m.isSoN = .ok true ∧ m.isOrthogonal = .ok true := by
  have e : ∀ i j, dcmOf (mkQ (1 / 2) (1 / 2) (1 / 2) (1 / 2)) i j = tbl [[0, 0, 1], [1, 0, 0], [0, 1, 0]] i j := by
    intro i j
    unfold dcmOf mkQ
    norm_num
  obtain ⟨m, h1, -, h2⟩ := C135_rotation (p := mkQ (1 / 2) (1 / 2) (1 / 2) (1 / 2)) (q := 1) (i := 0) (j := 2) (σ := 1) (t := 0)
    (fvec_is [1 / 2, 1 / 2, 1 / 2, 1 / 2] rfl) (by decide +kernel) (by rw [norm_mkQ]; norm_num)
    (fvec_near (1 / 2) (1 / 2) (1 / 2) (1 / 2) (by decide +kernel) (by norm_num))
    (.inr (.inl ⟨rfl, rfl, rfl, rfl⟩))
    (fun k hk hk' => by
      rw [e, e]
      rcases (show k = 0 ∨ k = 2 by omega) with rfl | rfl <;> norm_num [tbl])
    (by rw [e]; norm_num [tbl]) (.inl ⟨rfl, by rw [e, e]; norm_num [tbl]⟩)
  exact ⟨m, h1, h2 (by rw [e]; norm_num [tbl])⟩

theorem sin_arccos45 : Real.sin (Real.arccos (4 / 5)) = 3 / 5 := by
  rw [Real.sin_arccos, show (1 - (4 / 5) ^ 2 : ℝ) = (3 / 5) ^ 2 by norm_num, Real.sqrt_sq (by norm_num)]

theorem sin_arccos35 : Real.sin (Real.arccos (3 / 5)) = 4 / 5 := by
  rw [Real.sin_arccos, show (1 - (3 / 5) ^ 2 : ℝ) = (4 / 5) ^ 2 by norm_num, Real.sqrt_sq (by norm_num)]

/-- A roll of about 74 degrees passes. -/
example : (Quat.convertToDcm (fvec [13421773 / 2 ^ 24, 10066330 / 2 ^ 24, 0, 0]) >>= fun m => m.isSoN) = .ok true := by
  have hc : Real.cos (Real.arccos (4 / 5)) = 4 / 5 := Real.cos_arccos (by norm_num) (by norm_num)
  refine (C135_roll (θ := 2 * Real.arccos (4 / 5)) (fvec_is [13421773 / 2 ^ 24, 10066330 / 2 ^ 24, 0, 0] rfl)
    (by decide +kernel) ?_).2.1 ?_
  · rw [mul_div_cancel_left₀ _ (by norm_num), hc, sin_arccos45]
    refine fvec_near (13421773 / 2 ^ 24) (10066330 / 2 ^ 24) 0 0 (by decide +kernel) ?_
    norm_num
  · rw [Real.sin_two_mul, hc, sin_arccos45]
    norm_num

/-- A roll of about 6·10⁻⁵ is refused. -/
example : (Quat.convertToDcm (fvec [1, 1 / 2 ^ 15, 0, 0]) >>= fun m => m.isSoN) = .error (.err .Singular) := by
  have hs : Real.sin (Real.arcsin (1 / 2 ^ 15)) = 1 / 2 ^ 15 := Real.sin_arcsin (by norm_num) (by norm_num)
  have hc : Real.cos (Real.arcsin (1 / 2 ^ 15)) = √(1 - (1 / 2 ^ 15) ^ 2) := Real.cos_arcsin _
  have h1 : √(1 - (1 / 2 ^ 15) ^ 2) ≤ 1 := by rw [Real.sqrt_le_left (by norm_num)]; norm_num
  have h2 : 1 - 1 / 10 ^ 8 ≤ √(1 - (1 / 2 ^ 15) ^ 2) := Real.le_sqrt_of_sq_le (by norm_num)
  rw [← hc] at h1 h2
  have r := C135_roll (θ := 2 * Real.arcsin (1 / 2 ^ 15)) (fvec_is [1, 1 / 2 ^ 15, 0, 0] rfl) (by decide +kernel) (by
    rw [mul_div_cancel_left₀ _ (by norm_num), hs]
    refine fvec_near 1 (1 / 2 ^ 15) 0 0 (by decide +kernel) ?_
    generalize Real.cos (Real.arcsin (1 / 2 ^ 15)) = c at h1 h2
    norm_num at h2 ⊢
    nlinarith)
  rw [Real.sin_two_mul, hs] at r
  generalize Real.cos (Real.arcsin (1 / 2 ^ 15)) = c at h1 h2 r
  refine r.1 ?_ ?_
  · norm_num at h2 ⊢
    linarith
  · norm_num at h1 ⊢
    linarith

/-- A pitch of about 74 degrees passes, one of about 106 degrees is refused. -/
example : (Quat.convertToDcm (fvec [13421773 / 2 ^ 24, 0, 10066330 / 2 ^ 24, 0]) >>= fun m => m.isSoN) = .ok true ∧
    (Quat.convertToDcm (fvec [10066330 / 2 ^ 24, 0, 13421773 / 2 ^ 24, 0]) >>= fun m => m.isSoN) = .error (.err .Singular) := by
  have hc : Real.cos (Real.arccos (4 / 5)) = 4 / 5 := Real.cos_arccos (by norm_num) (by norm_num)
  have hc' : Real.cos (Real.arccos (3 / 5)) = 3 / 5 := Real.cos_arccos (by norm_num) (by norm_num)
  constructor
  · refine (C135_pitch (θ := 2 * Real.arccos (4 / 5)) (fvec_is [13421773 / 2 ^ 24, 0, 10066330 / 2 ^ 24, 0] rfl)
      (by decide +kernel) ?_ ?_ ?_).1 (.inl ?_)
    · rw [mul_div_cancel_left₀ _ (by norm_num), hc, sin_arccos45]
      refine fvec_near (13421773 / 2 ^ 24) 0 (10066330 / 2 ^ 24) 0 (by decide +kernel) ?_
      norm_num
    · exact (lit_val 0 (by decide +kernel)).trans (by norm_num)
    · exact (lit_val 0 (by decide +kernel)).trans (by norm_num)
    · rw [Real.cos_two_mul, hc]
      norm_num
  · refine (C135_pitch (θ := 2 * Real.arccos (3 / 5)) (fvec_is [10066330 / 2 ^ 24, 0, 13421773 / 2 ^ 24, 0] rfl)
      (by decide +kernel) ?_ ?_ ?_).2 ?_ ?_
    · rw [mul_div_cancel_left₀ _ (by norm_num), hc', sin_arccos35]
      refine fvec_near (10066330 / 2 ^ 24) 0 (13421773 / 2 ^ 24) 0 (by decide +kernel) ?_
      norm_num
    · exact (lit_val 0 (by decide +kernel)).trans (by norm_num)
    · exact (lit_val 0 (by decide +kernel)).trans (by norm_num)
    · rw [Real.cos_two_mul, hc']
      norm_num
    · rw [Real.sin_two_mul, hc', sin_arccos35]
      norm_num

end Verif
