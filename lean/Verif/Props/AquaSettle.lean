import Verif.Props.AquaCases

/-
A MARG filter at rest: how one update changes the tilt and the heading error, and where many updates lead (C110).
-/

set_option linter.unusedSectionVars false
set_option linter.unusedSimpArgs false

namespace Verif
open Scalar
namespace Aqua

variable {I J V : Quaternion ℝ} {α β t u p q r : ℝ}

/-- The two weights of the interpolated acceleration correction. -/
theorem weights (ha : 0 ≤ α ∧ α ≤ 1) (hr : r ≤ 0) {l : ℝ} (hl : l = √((1 - r) / 2)) :
    l ^ 2 = (1 - r) / 2 ∧ 7 / 10 ≤ l ∧ 7 / 10 ≤ 1 - α + α * l := by
  have h1 : l ^ 2 = (1 - r) / 2 := by rw [hl, Real.sq_sqrt (by linarith)]
  have h2 : 7 / 10 ≤ l := by
    rw [hl]
    apply Real.le_sqrt_of_sq_le
    linarith
  refine ⟨h1, h2, ?_⟩
  nlinarith [mul_le_mul_of_nonneg_left h2 ha.1]

/-- The interpolated correction from the acceleration, and what it does to the acceleration and to any
vector. -/
theorem acc_turn (ha : 0 ≤ α ∧ α ≤ 1) (hr : r < 0) {n l d w : ℝ} (hpq : p ^ 2 + q ^ 2 + r ^ 2 = n ^ 2)
    (hl : l = √((1 - r) / 2)) (hd : d = 1 - α + α * l) (hw : w = α / (2 * l)) (ht : t < l)
    (h : Inter α t (accQ ![p, q, r]) I) :
    ‖I‖ = 1 ∧ (∃ p' q' r', star I * mkQ 0 p q r * I = mkQ 0 p' q' r' ∧
      n + r' = (n + r) * (d - w * (n - r)) ^ 2 / (d ^ 2 + w ^ 2 * (n ^ 2 - r ^ 2))) ∧
    ∀ V : Quaternion ℝ, ‖star I * V * I - V‖ ≤ 2 * (w / d) * √(n ^ 2 - r ^ 2) * ‖V‖ := by
  obtain ⟨hl2, hl1, hd1⟩ := weights ha hr.le hl
  rw [← hd] at hd1
  have hw0 : 0 ≤ w := by rw [hw]; exact div_nonneg ha.1 (by linarith)
  have hre : accQ ![p, q, r] = mkQ l (q / (2 * l)) (-p / (2 * l)) 0 := by
    unfold accQ
    rw [if_pos (show (![p, q, r] : Fin 3 → ℝ) 2 < 0 from hr), hl]
    rfl
  rw [hre] at h
  have hI : I = unitOf (mkQ d (w * q) (-(w * p)) 0) := by
    rcases h with ⟨-, rfl⟩ | ⟨hle, -⟩
    · unfold lerpQ
      congr 1
      rw [hd, hw]
      apply Quaternion.ext <;> simp [Quaternion.re_one, Quaternion.imI_one, Quaternion.imJ_one, Quaternion.imK_one] <;>
        ring
    · exact absurd ht (not_lt.mpr hle)
  obtain ⟨N, hN⟩ : ∃ N, N = d ^ 2 + w ^ 2 * (n ^ 2 - r ^ 2) := ⟨_, rfl⟩
  have hs : n ^ 2 - r ^ 2 = p ^ 2 + q ^ 2 := by linarith
  have hs0 : 0 ≤ n ^ 2 - r ^ 2 := by rw [hs]; positivity
  have hNd : d ^ 2 ≤ N := by
    rw [hN]
    exact le_add_of_nonneg_right (mul_nonneg (sq_nonneg w) hs0)
  have hN0 : 0 < N := (pow_pos (by linarith) 2).trans_le hNd
  have hbn : ‖mkQ d (w * q) (-(w * p)) 0‖ = √N := by
    rw [quat_norm, normSq_mkQ, hN, hs]
    congr 1
    ring
  have hbig : epsilon ℝ < ‖mkQ d (w * q) (-(w * p)) 0‖ := by
    rw [hbn]
    refine lt_of_lt_of_le eps_lt_half ?_
    exact Real.le_sqrt_of_sq_le ((pow_le_pow_left₀ (by norm_num) (by linarith) 2).trans hNd)
  have hI1 : ‖I‖ = 1 := by rw [hI, unitOf_norm hbig]
  have hI2 : I = (√N)⁻¹ • mkQ d (w * q) (-(w * p)) 0 := by
    rw [hI]
    unfold unitOf
    rw [if_pos hbig, hbn]
  have hsq : (√N)⁻¹ * (√N)⁻¹ = N⁻¹ := by
    rw [← mul_inv, Real.mul_self_sqrt hN0.le]
  refine ⟨hI1, ⟨(star I * mkQ 0 p q r * I).imI, (star I * mkQ 0 p q r * I).imJ, (star I * mkQ 0 p q r * I).imK,
    Quaternion.ext _ _ ?_ rfl rfl rfl, ?_⟩, ?_⟩
  · rw [hI2, Quaternion.star_smul, smul_mul_assoc, smul_mul_assoc, mul_smul_comm, smul_smul, hsq]
    simp [Quaternion.re_mul, Quaternion.imI_mul, Quaternion.imJ_mul, Quaternion.imK_mul]
    ring_nf
    simp
  · rw [hI2, Quaternion.star_smul, smul_mul_assoc, smul_mul_assoc, mul_smul_comm, smul_smul, hsq]
    simp [Quaternion.re_mul, Quaternion.imI_mul, Quaternion.imJ_mul, Quaternion.imK_mul]
    rw [← hN, eq_div_iff hN0.ne', add_mul, mul_comm N⁻¹, mul_assoc _ N⁻¹, inv_mul_cancel₀ hN0.ne', hN]
    have hp : p ^ 2 = n ^ 2 - r ^ 2 - q ^ 2 := by linarith
    linear_combination (-2 * d * w - w ^ 2 * r) * hp
  · intro V
    obtain ⟨R, hR⟩ : ∃ R : Quaternion ℝ, R = I - mkQ I.re 0 0 0 := ⟨_, rfl⟩
    have hc : ∀ V : Quaternion ℝ, mkQ I.re 0 0 0 * V = V * mkQ I.re 0 0 0 := by
      intro V
      apply Quaternion.ext <;> simp [Quaternion.re_mul, Quaternion.imI_mul, Quaternion.imJ_mul, Quaternion.imK_mul] <;>
        ring
    have hII : star I * I = 1 := by
      rw [Quaternion.star_mul_self, normSq_of_norm hI1]; rfl
    have e1 : star I * V * I - V = star I * (V * R - R * V) := by
      rw [hR]
      have := hc V
      calc star I * V * I - V = star I * V * I - (star I * I) * V := by rw [hII, one_mul]
        _ = star I * (V * (I - mkQ I.re 0 0 0) - (I - mkQ I.re 0 0 0) * V) := by
            rw [mul_sub, sub_mul, this]; noncomm_ring
    have hRn : ‖R‖ ≤ w / d * √(n ^ 2 - r ^ 2) := by
      have e2 : R = (√N)⁻¹ • mkQ 0 (w * q) (-(w * p)) 0 := by
        rw [hR, hI2]
        apply Quaternion.ext <;> simp
      have e3 : ‖mkQ 0 (w * q) (-(w * p)) 0‖ = w * √(n ^ 2 - r ^ 2) := by
        rw [quat_norm, normSq_mkQ, show (0 : ℝ) ^ 2 + (w * q) ^ 2 + (-(w * p)) ^ 2 + 0 ^ 2 = w ^ 2 * (n ^ 2 - r ^ 2) by
          rw [hs]; ring, Real.sqrt_mul (sq_nonneg w), Real.sqrt_sq hw0]
      rw [e2, norm_smul, e3, Real.norm_of_nonneg (inv_nonneg.mpr (Real.sqrt_nonneg _))]
      have e4 : (√N)⁻¹ ≤ d⁻¹ := by
        apply inv_anti₀ (by linarith)
        exact Real.le_sqrt_of_sq_le hNd
      calc (√N)⁻¹ * (w * √(n ^ 2 - r ^ 2)) ≤ d⁻¹ * (w * √(n ^ 2 - r ^ 2)) :=
            mul_le_mul_of_nonneg_right e4 (mul_nonneg hw0 (Real.sqrt_nonneg _))
        _ = w / d * √(n ^ 2 - r ^ 2) := by ring
    rw [e1, norm_mul, norm_star, hI1, one_mul]
    calc ‖V * R - R * V‖ ≤ ‖V * R‖ + ‖R * V‖ := norm_sub_le _ _
      _ = 2 * ‖R‖ * ‖V‖ := by rw [norm_mul, norm_mul]; ring
      _ ≤ 2 * (w / d * √(n ^ 2 - r ^ 2)) * ‖V‖ := by gcongr
      _ = 2 * (w / d) * √(n ^ 2 - r ^ 2) * ‖V‖ := by ring

/-- The tilt shrinks by a factor that does not depend on the tilt. -/
theorem tilt_factor (ha : 0 < α ∧ α ≤ 1) (hr : r < 0) {n l d w N : ℝ} (hn : -r ≤ n)
    (hl : l = √((1 - r) / 2)) (hd : d = 1 - α + α * l) (hw : w = α / (2 * l)) (h1 : 1 ≤ N) (h2 : n ≤ N) :
    (d - w * (n - r)) ^ 2 / (d ^ 2 + w ^ 2 * (n ^ 2 - r ^ 2)) ≤
      1 - 2 * α * n / ((1 + N) ^ 2 * (1 + α ^ 2 * n ^ 2)) := by
  obtain ⟨hl2, hl1, hd1⟩ := weights ⟨ha.1.le, ha.2⟩ hr.le hl
  rw [← hd] at hd1
  have ha0 := ha.1
  have hn0 : 0 < n := by linarith
  have hs0 : 0 ≤ n ^ 2 - r ^ 2 := sub_nonneg.mpr (sq_le_sq' (by linarith) (by linarith))
  have hl0 : 0 < l := by linarith
  have hwl : w * (2 * l) = α := by rw [hw]; field_simp
  have hw0 : 0 < w := by rw [hw]; exact div_pos ha.1 (by linarith)
  obtain ⟨L, hL⟩ : ∃ L, L = √((1 + N) / 2) := ⟨_, rfl⟩
  have hL2 : L ^ 2 = (1 + N) / 2 := by rw [hL, Real.sq_sqrt (by linarith)]
  have hL1 : 1 ≤ L := by rw [hL]; exact Real.one_le_sqrt.mpr (by linarith)
  have hlL : l ≤ L := by rw [hl, hL]; exact Real.sqrt_le_sqrt (by linarith)
  have hdL : d ≤ L := by
    rw [hd]
    linarith [mul_le_mul_of_nonneg_left hlL ha.1.le, mul_le_mul_of_nonneg_left hL1 (sub_nonneg.mpr ha.2)]
  have hdr : d + w * r = 1 - α + w := by
    have : r = 1 - 2 * l ^ 2 := by linarith
    rw [hd, this]
    linear_combination (-l) * hwl
  have hD0 : 0 < d ^ 2 + w ^ 2 * (n ^ 2 - r ^ 2) :=
    add_pos_of_pos_of_nonneg (pow_pos (by linarith) 2) (mul_nonneg (sq_nonneg w) hs0)
  have hw1 : w ≤ α := by linarith [mul_le_mul_of_nonneg_left (show 1 ≤ 2 * l by linarith) hw0.le]
  have hD : d ^ 2 + w ^ 2 * (n ^ 2 - r ^ 2) ≤ L ^ 2 * (1 + α ^ 2 * n ^ 2) := by
    have k1 : d ^ 2 ≤ L ^ 2 := pow_le_pow_left₀ (by linarith) hdL 2
    have k2 : w ^ 2 * (n ^ 2 - r ^ 2) ≤ α ^ 2 * n ^ 2 := by
      apply mul_le_mul _ _ hs0 (sq_nonneg _)
      · exact pow_le_pow_left₀ hw0.le hw1 2
      · linarith [sq_nonneg r]
    have k3 : 1 * (α ^ 2 * n ^ 2) ≤ L ^ 2 * (α ^ 2 * n ^ 2) :=
      mul_le_mul_of_nonneg_right (one_le_pow₀ hL1) (by positivity)
    linarith
  have hW : α / (4 * L ^ 2) ≤ w * (d + w * r) := by
    rw [hdr]
    have k1 : α / (2 * L) ≤ w := by
      rw [hw]
      exact div_le_div_of_nonneg_left ha.1.le (by linarith) (by linarith)
    have k2 : 1 / (2 * L) ≤ 1 - α + w := by
      have k3 : 1 / (2 * L) ≤ 1 := by
        rw [div_le_one (by linarith)]
        linarith
      have k4 : 1 / (2 * L) = (1 - α) * (1 / (2 * L)) + α / (2 * L) := by ring
      rw [k4]
      have := mul_le_mul_of_nonneg_left k3 (sub_nonneg.mpr ha.2)
      linarith
    have k5 := mul_le_mul k1 k2 (by positivity) hw0.le
    refine le_trans (le_of_eq ?_) k5
    have : L ≠ 0 := by linarith
    field_simp
    norm_num
  have key : 2 * α * n / ((1 + N) ^ 2 * (1 + α ^ 2 * n ^ 2)) ≤
      2 * w * (n - r) * (d + w * r) / (d ^ 2 + w ^ 2 * (n ^ 2 - r ^ 2)) := by
    have e1 : (1 + N) ^ 2 = 4 * L ^ 4 := by
      have : 1 + N = 2 * L ^ 2 := by linarith
      rw [this]; ring
    have hp : 0 < L ^ 2 * (1 + α ^ 2 * n ^ 2) := by positivity
    have k1 : 2 * n * (α / (4 * L ^ 2)) ≤ 2 * w * (n - r) * (d + w * r) := by
      have k2 : 0 ≤ w * (d + w * r) := le_trans (by positivity) hW
      calc 2 * n * (α / (4 * L ^ 2)) ≤ 2 * n * (w * (d + w * r)) := by
            exact mul_le_mul_of_nonneg_left hW (by linarith)
        _ ≤ 2 * (n - r) * (w * (d + w * r)) := mul_le_mul_of_nonneg_right (by linarith) k2
        _ = _ := by ring
    refine le_trans ?_ (div_le_div₀ (le_trans (by positivity) k1) k1 hD0 hD)
    rw [e1]
    refine le_of_eq ?_
    have : L ≠ 0 := by linarith
    field_simp
  have e : (d - w * (n - r)) ^ 2 / (d ^ 2 + w ^ 2 * (n ^ 2 - r ^ 2)) =
      1 - 2 * w * (n - r) * (d + w * r) / (d ^ 2 + w ^ 2 * (n ^ 2 - r ^ 2)) := by
    rw [eq_sub_iff_add_eq, ← add_div, div_eq_one_iff_eq hD0.ne']
    ring
  rw [e]
  linarith

/-- The heading correction as a cosine and a sine. -/
theorem magPos_parts {x y h : ℝ} (hh : h = √(x * x + y * y)) (hp : 0 < h + x) : ∃ S,
    magPos x y = mkQ √((h + x) / (2 * h)) 0 0 S ∧ √((h + x) / (2 * h)) ^ 2 + S ^ 2 = 1 ∧
    x = h * (√((h + x) / (2 * h)) ^ 2 - S ^ 2) ∧ y = 2 * h * √((h + x) / (2 * h)) * S ∧ 0 < h := by
  have hrr : h ^ 2 = x * x + y * y := by rw [hh]; exact root
  have hr : 0 < h := by
    rcases (hh ▸ Real.sqrt_nonneg _ : 0 ≤ h).lt_or_eq with h' | h'
    · exact h'
    · rw [← h'] at hrr hp
      have hx : 0 < x := by linarith
      linarith [mul_pos hx hx, mul_self_nonneg y]
  have hC0 : 0 < (h + x) / (2 * h) := div_pos hp (by linarith)
  have hC : √((h + x) / (2 * h)) ^ 2 = (h + x) / (2 * h) := Real.sq_sqrt hC0.le
  have hC1 : 0 < √((h + x) / (2 * h)) := Real.sqrt_pos.mpr hC0
  have e1 : √(x * x + y * y + x * √(x * x + y * y)) / √(2 * (x * x + y * y)) = √((h + x) / (2 * h)) := by
    rw [← Real.sqrt_div' _ (by linarith [mul_self_nonneg x, mul_self_nonneg y]), ← hh, ← hrr]
    congr 1
    field_simp
  obtain ⟨C, hCe⟩ : ∃ C, C = √((h + x) / (2 * h)) := ⟨_, rfl⟩
  have e2 : √2 * √(x * x + y * y + x * √(x * x + y * y)) = 2 * h * C := by
    rw [← Real.sqrt_mul (by norm_num), ← hh, ← hrr, hCe]
    rw [show 2 * h = √((2 * h) ^ 2) by rw [Real.sqrt_sq (by linarith)], ← Real.sqrt_mul (sq_nonneg _)]
    congr 1
    rw [Real.sqrt_sq (by linarith)]
    field_simp
  rw [← hCe] at e1 hC hC1 ⊢
  have hCC : 2 * h * C ^ 2 = h + x := by rw [hC]; field_simp
  have hS : y / (2 * h * C) * (2 * h * C) = y := by
    have : (2 * h * C) ≠ 0 := by positivity
    field_simp
  have hy2 : y ^ 2 = (h - x) * (h + x) := by linear_combination -hrr
  have hSS : (y / (2 * h * C)) ^ 2 = 1 - C ^ 2 := by
    rw [div_pow, hy2, div_eq_iff (by positivity)]
    have : h - x = 2 * h * (1 - C ^ 2) := by linarith
    rw [this, ← hCC]
    ring
  refine ⟨y / (2 * h * C), ?_, ?_, ?_, ?_, hr⟩
  · unfold magPos
    rw [e1, e2]
  · rw [hSS]; ring
  · rw [hSS]; linarith
  · linarith

/-- The interpolated correction from the field, for a field less than the threshold angle from straight ahead. -/
theorem mag_turn {x y h : ℝ} (z : ℝ) (hb : 0 ≤ β ∧ β ≤ 1) (hh : h = √(x * x + y * y))
    (hx : h - x < 2 * h * (1 - u ^ 2)) :
    0 < h + x ∧ ∃ J, Inter β u (magPos x y) J ∧ ‖J‖ = 1 ∧ ∃ x' y', star J * mkQ 0 x y z * J = mkQ 0 x' y' z ∧
      x' * x' + y' * y' = x * x + y * y ∧
      h - x' = (h - x) * ((1 - β) ^ 2 / (1 - 2 * β * (1 - β) * (1 - √((h + x) / (2 * h))))) := by
  have h0 : 0 ≤ h := by rw [hh]; exact Real.sqrt_nonneg _
  have hxh : x ≤ h := by
    rw [hh]
    exact le_trans (le_abs_self x) (Real.abs_le_sqrt (by nlinarith [sq_nonneg y]))
  have h1 : 0 < h := by
    rcases h0.lt_or_eq with h' | h'
    · exact h'
    · rw [← h'] at hx hxh
      linarith
  have hp : 0 < h + x := by linarith [mul_nonneg h0 (sq_nonneg u)]
  refine ⟨hp, ?_⟩
  obtain ⟨S, k1, k2, k3, k4, -⟩ := magPos_parts hh hp
  have hC2 : √((h + x) / (2 * h)) ^ 2 = (h + x) / (2 * h) := Real.sq_sqrt (div_pos hp (by linarith)).le
  have hC0 : 0 < √((h + x) / (2 * h)) := Real.sqrt_pos.mpr (div_pos hp (by linarith))
  have huC : u < √((h + x) / (2 * h)) := by
    refine Real.lt_sqrt_of_sq_lt ?_
    rw [lt_div_iff₀ (by linarith)]
    linarith
  generalize √((h + x) / (2 * h)) = C at *
  obtain ⟨M, hM⟩ : ∃ M, M = 1 - 2 * β * (1 - β) * (1 - C) := ⟨_, rfl⟩
  have hC1 : C ≤ 1 := (sq_le_one_iff₀ hC0.le).mp (by linarith [sq_nonneg S])
  have hM2 : 1 / 2 ≤ M := by
    rw [hM]
    have : β * (1 - β) ≤ 1 / 4 := by linarith [sq_nonneg (1 - 2 * β)]
    have h3 : 0 ≤ β * (1 - β) := mul_nonneg hb.1 (sub_nonneg.mpr hb.2)
    linarith [mul_le_mul this (show 1 - C ≤ 1 by linarith) (by linarith) (by norm_num)]
  have hMn : Quaternion.normSq (mkQ (1 - β + β * C) 0 0 (β * S)) = M := by
    rw [normSq_mkQ, hM]
    linear_combination β ^ 2 * k2
  have hL : lerpQ β (magPos x y) = unitOf (mkQ (1 - β + β * C) 0 0 (β * S)) := by
    unfold lerpQ
    rw [k1]
    congr 1
    apply Quaternion.ext <;> simp [Quaternion.re_one, Quaternion.imI_one, Quaternion.imJ_one, Quaternion.imK_one]
  have hbig : epsilon ℝ < ‖mkQ (1 - β + β * C) 0 0 (β * S)‖ := norm_large (by rw [hMn]; exact hM2)
  refine ⟨lerpQ β (magPos x y), Or.inl ⟨by rw [k1]; exact huC, rfl⟩, by rw [hL, unitOf_norm hbig], ?_⟩
  have hJ : lerpQ β (magPos x y) = (√M)⁻¹ • mkQ (1 - β + β * C) 0 0 (β * S) := by
    rw [hL]
    unfold unitOf
    rw [if_pos hbig, quat_norm, hMn]
  have hM0 : 0 < M := by linarith
  have hsq : (√M)⁻¹ * (√M)⁻¹ = M⁻¹ := by
    rw [← mul_inv, Real.mul_self_sqrt hM0.le]
  rw [hJ, Quaternion.star_smul, smul_mul_assoc, smul_mul_assoc, mul_smul_comm, smul_smul, hsq, ← hM]
  have hM' : M = (1 - β + β * C) ^ 2 + (β * S) ^ 2 := by rw [← hMn, normSq_mkQ]; ring
  refine ⟨M⁻¹ * (x * ((1 - β + β * C) ^ 2 - (β * S) ^ 2) + 2 * y * (1 - β + β * C) * (β * S)),
    M⁻¹ * (y * ((1 - β + β * C) ^ 2 - (β * S) ^ 2) - 2 * x * (1 - β + β * C) * (β * S)), ?_, ?_, ?_⟩
  · apply Quaternion.ext
    · simp [Quaternion.re_mul, Quaternion.imI_mul, Quaternion.imJ_mul, Quaternion.imK_mul]
      right; ring
    · simp [Quaternion.re_mul, Quaternion.imI_mul, Quaternion.imJ_mul, Quaternion.imK_mul]
      left; ring
    · simp [Quaternion.re_mul, Quaternion.imI_mul, Quaternion.imJ_mul, Quaternion.imK_mul]
      left; ring
    · simp [Quaternion.re_mul, Quaternion.imI_mul, Quaternion.imJ_mul, Quaternion.imK_mul]
      rw [inv_mul_eq_iff_eq_mul₀ hM0.ne', hM']
      ring
  · have : M⁻¹ * M = 1 := inv_mul_cancel₀ hM0.ne'
    generalize M⁻¹ = m at *
    generalize 1 - β + β * C = g at *
    generalize β * S = f at *
    have e : (m * (x * (g ^ 2 - f ^ 2) + 2 * y * g * f)) * (m * (x * (g ^ 2 - f ^ 2) + 2 * y * g * f)) +
      (m * (y * (g ^ 2 - f ^ 2) - 2 * x * g * f)) * (m * (y * (g ^ 2 - f ^ 2) - 2 * x * g * f)) =
      (x * x + y * y) * (m * (g ^ 2 + f ^ 2)) ^ 2 := by ring
    rw [e, ← hM', this]
    ring
  · have e : (h - x) * ((1 - β) ^ 2 / M) = (h - x) * (1 - β) ^ 2 / M := by ring
    rw [e, eq_div_iff hM0.ne', sub_mul, mul_comm M⁻¹, mul_assoc _ M⁻¹, inv_mul_cancel₀ hM0.ne', hM']
    rw [k3, k4]
    linear_combination (-h * ((1 - β + β * C) ^ 2 + (β * S) ^ 2 - (1 - β) ^ 2)) * k2

/-- An interpolated turn about the third axis is one. -/
theorem inter_axis {c s : ℝ} (h : Inter β u (mkQ c 0 0 s) J) : J.imI = 0 ∧ J.imJ = 0 := by
  rcases h with ⟨-, rfl⟩ | ⟨-, -, -, rfl⟩
  · unfold lerpQ unitOf
    split
    · simp [Quaternion.imI_one, Quaternion.imJ_one]
    · exact ⟨rfl, rfl⟩
  · simp [slerpQ, Quaternion.imI_one, Quaternion.imJ_one]

/-- Such a turn keeps the third coordinate. -/
theorem axis_keeps (h1 : J.imI = 0) (h2 : J.imJ = 0) (hJ : ‖J‖ = 1) (p q r : ℝ) :
    ∃ p' q', star J * mkQ 0 p q r * J = mkQ 0 p' q' r := by
  have hs := normSq_of_norm hJ
  rw [Quaternion.normSq_def', h1, h2] at hs
  refine ⟨(star J * mkQ 0 p q r * J).imI, (star J * mkQ 0 p q r * J).imJ, Quaternion.ext _ _ ?_ rfl rfl ?_⟩
  · simp [Quaternion.re_mul, Quaternion.imI_mul, Quaternion.imJ_mul, Quaternion.imK_mul, h1, h2]
    ring
  · simp [Quaternion.re_mul, Quaternion.imI_mul, Quaternion.imJ_mul, Quaternion.imK_mul, h1, h2]
    linear_combination r * hs

/-- A started filter with three configured sensors. -/
structure Set (i : AquaInit XR) (dg : GyrometerConfig ℝ) (da : AccelerometerConfig ℝ) (dm : MagnetometerConfig ℝ)
    (s : Aqua XR) : Prop where
  started : Started i s
  gyr : s.getGyrometerConfig = .ok dg.fin
  acc : s.getAccelerometerConfig = .ok da.fin
  mag : s.getMagnetometerConfig = .ok dm.fin

variable {s s' : Aqua XR} {i : AquaInit XR} {A : Quaternion ℝ} {τ : ℝ}
  {dg : GyrometerConfig ℝ} {da : AccelerometerConfig ℝ} {dm : MagnetometerConfig ℝ} {y : Sample}

theorem Set.feed (h : Set i dg da dm s) (y : Sample) : Set i dg da dm (feed y s).2 := by
  obtain ⟨hr, -⟩ := h.started.ready
  have hstep : Step s (Aqua.feed y s).2 := frame_update _ _ _ _ _ _ _ _ _ s
  refine ⟨?_, (hstep.gyr hr.gyr).2.2.trans h.gyr, (hstep.acc hr.acc).2.2.trans h.acc,
    (hstep.mag hr.mag).2.2.trans h.mag⟩
  obtain ⟨u0, u1, l0, l1, l2⟩ := h.started
  exact ⟨u0, u1, l0, l1, l2.step (.update _ _ _ _ _ _ _ _ _)⟩

end Aqua

open Aqua
section
variable {s s' : Aqua XR} {i : AquaInit XR} {A : Quaternion ℝ} {τ α β t u : ℝ}
  {dg : GyrometerConfig ℝ} {da : AccelerometerConfig ℝ} {dm : MagnetometerConfig ℝ} {y : Sample}

/-- C110: one MARG update without adaptive gain at rest, whatever the field and its gain.  From a unit attitude
that sees the acceleration, of norm `n`, as `(p, q, r)` with `r < 0`, the next attitude sees it as
`(p', q', r')` with `n + r' = (n + r) (d - w (n - r))² / (d² + w² (n² - r²))`, where `l² = (1 - r) / 2`,
`d = 1 - α + α l` and `w = α / (2 l)`. -/
theorem C110_tilt (hs : Started i s) (hi : AquaInit.Fixed i τ α β t u) (hA : Shows s A) (hn : ‖A‖ = 1)
    (hg : s.getGyrometerConfig = .ok dg.fin) (ha : s.getAccelerometerConfig = .ok da.fin)
    (hm : s.getMagnetometerConfig = .ok dm.fin) (hr : y.rate dg = 0) {p q r l d w : ℝ}
    (h1 : star A * pureQ (y.acc da) * A = mkQ 0 p q r) (hz : r < 0) (hl : l = √((1 - r) / 2)) (ht : t < l)
    (hd : d = 1 - α + α * l) (hw : w = α / (2 * l)) (h : feed y s = (.ok (), s')) :
    ∃ Q p' q' r', Shows s' Q ∧ ‖Q‖ = 1 ∧ star Q * pureQ (y.acc da) * Q = mkQ 0 p' q' r' ∧
      norm3 (y.acc da) + r' = (norm3 (y.acc da) + r) * (d - w * (norm3 (y.acc da) - r)) ^ 2 /
        (d ^ 2 + w ^ 2 * (norm3 (y.acc da) ^ 2 - r ^ 2)) := by
  obtain ⟨I, J, k, hs'⟩ := fixed_inv hs hi hA hg ha hm h
  have hA1 := normSq_of_norm hn
  have hP : predQ A (y.rate dg) τ = A := by rw [hr, predQ_rest hn]
  have hg1 : unrot A (y.acc da) = ![p, q, r] := pureQ_inj ((unrot_unit hA1 _).trans (h1.trans rfl))
  have hng : norm3 ![p, q, r] = norm3 (y.acc da) := by rw [← hg1, unrot_norm hA1]
  have hpq : p ^ 2 + q ^ 2 + r ^ 2 = norm3 (y.acc da) ^ 2 := by rw [← hng, norm3_sq]; rfl
  have hkacc := k.acc
  rw [hP, hg1] at hkacc
  obtain ⟨hI, ⟨p', q', r', e1, e2⟩, -⟩ := acc_turn hi.alpha_range hz hpq hl hd hw ht hkacc
  have hJ := unit_of_inter hi.beta_range hi.tMag_range.1 (magPos_spec k.ahead (z := 0)).1 k.mag
  obtain ⟨j1, j2⟩ := inter_axis k.mag
  have hQ : ‖A * I * J‖ = 1 := by rw [norm_mul, norm_mul, hn, hI, hJ]; norm_num
  rw [hP, unitOf_unit hQ] at hs'
  obtain ⟨p'', q'', e3⟩ := axis_keeps j1 j2 hJ p' q' r'
  exact ⟨A * I * J, p'', q'', r', hs', hQ, by rw [back_mul, back_mul, h1, e1, e3], e2⟩

/-- Every update of a list succeeds. -/
def Aqua.AllOk : List Sample → Aqua XR → Prop
  | [], _ => True
  | y :: l, s => (feed y s).1 = .ok () ∧ AllOk l (feed y s).2

/-- C110: so any number of such updates level the attitude: as long as they succeed, the tilt `n + r` shrinks by
a constant factor below 1 every time, whatever the fields and their gain. -/
theorem C110_level (hi : AquaInit.Fixed i τ α β t u) (hα : 0 < α) {a : Fin 3 → ℝ} {n : ℝ} (hna : norm3 a = n)
    (l : List Sample) : ∀ {s : Aqua XR} {A : Quaternion ℝ} {p q r : ℝ}, Started i s → Shows s A → ‖A‖ = 1 →
    s.getGyrometerConfig = .ok dg.fin → s.getAccelerometerConfig = .ok da.fin →
    s.getMagnetometerConfig = .ok dm.fin → star A * pureQ a * A = mkQ 0 p q r → r < 0 → t < √((1 - r) / 2) →
    (∀ y ∈ l, y.rate dg = 0 ∧ y.acc da = a) → Aqua.AllOk l s →
    ∃ Q p' q' r', Shows (feeds s l) Q ∧ ‖Q‖ = 1 ∧ star Q * pureQ a * Q = mkQ 0 p' q' r' ∧
      0 ≤ n + r' ∧ n + r' ≤ (n + r) * (1 - 2 * α * n / ((1 + max 1 n) ^ 2 * (1 + α ^ 2 * n ^ 2))) ^ l.length := by
  induction l with
  | nil =>
    intro s A p q r hs hA hn hg ha hm h1 hz ht hl hok
    have hA1 := normSq_of_norm hn
    have hg1 : unrot A a = ![p, q, r] := pureQ_inj ((unrot_unit hA1 _).trans (h1.trans rfl))
    have hng : norm3 ![p, q, r] = n := by rw [← hg1, unrot_norm hA1, hna]
    have hpq : p ^ 2 + q ^ 2 + r ^ 2 = n ^ 2 := by rw [← hng, norm3_sq]; rfl
    have hn0 : 0 ≤ n := hna ▸ norm3_nonneg a
    have hrn := (abs_le_of_sq_le_sq' (show r ^ 2 ≤ n ^ 2 by nlinarith [sq_nonneg p, sq_nonneg q]) hn0).1
    exact ⟨A, p, q, r, hA, hn, h1, by linarith, by simp⟩
  | cons y l ih =>
    intro s A p q r hs hA hn hg ha hm h1 hz ht hl hok
    obtain ⟨hy1, hy2⟩ := hl y (by simp)
    have hA1 := normSq_of_norm hn
    have hg1 : unrot A a = ![p, q, r] := pureQ_inj ((unrot_unit hA1 _).trans (h1.trans rfl))
    have hng : norm3 ![p, q, r] = n := by rw [← hg1, unrot_norm hA1, hna]
    have hpq : p ^ 2 + q ^ 2 + r ^ 2 = n ^ 2 := by rw [← hng, norm3_sq]; rfl
    have hn0 : 0 ≤ n := hna ▸ norm3_nonneg a
    have hrn := (abs_le_of_sq_le_sq' (show r ^ 2 ≤ n ^ 2 by nlinarith [sq_nonneg p, sq_nonneg q]) hn0).1
    rw [← hy2] at h1
    obtain ⟨Q, p', q', r', k1, k2, k3, k4⟩ := C110_tilt hs hi hA hn hg ha hm hy1 h1 hz rfl ht rfl rfl
      (Prod.ext hok.1 rfl)
    rw [hy2] at k3
    rw [hy2, hna, mul_div_assoc] at k4
    have hf := tilt_factor ⟨hα, hi.alpha_range.2⟩ hz (n := n) (by linarith) rfl rfl rfl (le_max_left 1 n) (le_max_right 1 n)
    obtain ⟨ρ, hρ⟩ : ∃ ρ, ρ = 1 - 2 * α * n / ((1 + max 1 n) ^ 2 * (1 + α ^ 2 * n ^ 2)) := ⟨_, rfl⟩
    rw [← hρ] at hf ih ⊢
    have hρ1 : ρ ≤ 1 := by
      rw [hρ]
      have : 0 ≤ 2 * α * n / ((1 + max 1 n) ^ 2 * (1 + α ^ 2 * n ^ 2)) := by positivity
      linarith
    have hρ0 : 0 ≤ ρ := by
      refine le_trans ?_ hf
      have : 0 ≤ n ^ 2 - r ^ 2 := by nlinarith [sq_nonneg p, sq_nonneg q]
      positivity
    have k5 : n + r' ≤ (n + r) * ρ := by
      rw [k4]
      exact mul_le_mul_of_nonneg_left hf (by linarith)
    have k6 : r' ≤ r := by
      have := mul_le_mul_of_nonneg_left hρ1 (show 0 ≤ n + r by linarith)
      linarith
    have hset := (Set.mk hs hg ha hm).feed y
    obtain ⟨Q', p'', q'', r'', j1, j2, j3, j4, j5⟩ := ih hset.started k1 k2 hset.gyr hset.acc hset.mag k3 (by linarith)
      (lt_of_lt_of_le ht (Real.sqrt_le_sqrt (by linarith))) (fun z hz => hl z (List.mem_cons_of_mem _ hz)) hok.2
    refine ⟨Q', p'', q'', r'', j1, j2, j3, j4, j5.trans ?_⟩
    rw [List.length_cons, pow_succ', ← mul_assoc]
    exact mul_le_mul_of_nonneg_right k5 (pow_nonneg hρ0 _)

end

namespace Aqua
section
variable {s s' : Aqua XR} {i : AquaInit XR} {A : Quaternion ℝ} {τ α β t u : ℝ}
  {dg : GyrometerConfig ℝ} {da : AccelerometerConfig ℝ} {dm : MagnetometerConfig ℝ} {y : Sample}

/-- The turn is no larger than the square root of the tilt times a constant. -/
theorem turn_le (ha : 0 ≤ α ∧ α ≤ 1) {n r l d w : ℝ} (hr : r ≤ 0) (hn : -r ≤ n) (hl : l = √((1 - r) / 2))
    (hd : d = 1 - α + α * l) (hw : w = α / (2 * l)) :
    2 * (w / d) * √(n ^ 2 - r ^ 2) ≤ 2 * α * √(2 * n) * √(n + r) := by
  obtain ⟨hl2, hl1, hd1⟩ := weights ha hr hl
  rw [← hd] at hd1
  have k1 : w / d ≤ α := by
    rw [hw, div_div]
    refine div_le_self ha.1 ?_
    have e : 2 * l * d = (1 - α) * (2 * l) + α * (1 - r) := by
      rw [hd]
      linear_combination 2 * α * hl2
    rw [e]
    have := mul_le_mul_of_nonneg_left (show 1 ≤ 2 * l by linarith) (sub_nonneg.mpr ha.2)
    have := mul_nonneg ha.1 (neg_nonneg.mpr hr)
    linarith
  have k2 : √(n ^ 2 - r ^ 2) ≤ √(2 * n) * √(n + r) := by
    rw [← Real.sqrt_mul (by linarith)]
    apply Real.sqrt_le_sqrt
    nlinarith
  calc 2 * (w / d) * √(n ^ 2 - r ^ 2) ≤ 2 * α * √(n ^ 2 - r ^ 2) := by gcongr
    _ ≤ 2 * α * (√(2 * n) * √(n + r)) := mul_le_mul_of_nonneg_left k2 (by linarith [ha.1])
    _ = _ := by ring

/-- The horizontal length of a vector moves no more than the vector. -/
theorem horizontal_close {x y z x' y' z' δ : ℝ} (h : ‖mkQ 0 x' y' z' - mkQ 0 x y z‖ ≤ δ) :
    |x' - x| ≤ δ ∧ |√(x' * x' + y' * y') - √(x * x + y * y)| ≤ δ := by
  have e : ∀ a b : ℝ, √(a * a + b * b) = ‖mkQ 0 a b 0‖ := by
    intro a b
    rw [quat_norm, normSq_mkQ]
    congr 1
    ring
  have hsq : (x' - x) ^ 2 + (y' - y) ^ 2 + (z' - z) ^ 2 ≤ δ ^ 2 := by
    have h0 := pow_le_pow_left₀ (norm_nonneg _) h 2
    rw [show mkQ 0 x' y' z' - mkQ 0 x y z = mkQ 0 (x' - x) (y' - y) (z' - z) by
      apply Quaternion.ext <;> simp, quat_norm, Real.sq_sqrt Quaternion.normSq_nonneg, normSq_mkQ] at h0
    linarith
  have hδ : 0 ≤ δ := le_trans (norm_nonneg _) h
  constructor
  · exact abs_le_of_sq_le_sq (by linarith [sq_nonneg (y' - y), sq_nonneg (z' - z)]) hδ
  · rw [e, e]
    refine le_trans (abs_norm_sub_norm_le _ _) ?_
    rw [show mkQ 0 x' y' 0 - mkQ 0 x y 0 = mkQ 0 (x' - x) (y' - y) 0 by apply Quaternion.ext <;> simp,
      quat_norm, normSq_mkQ]
    exact Real.sqrt_le_iff.mpr ⟨hδ, by linarith [sq_nonneg (z' - z)]⟩

/-- The heading error shrinks by a factor that does not depend on it. -/
theorem heading_factor (hb : 0 ≤ β ∧ β ≤ 1) {C : ℝ} (hC : 0 ≤ C) :
    (1 - β) ^ 2 / (1 - 2 * β * (1 - β) * (1 - C)) ≤ (1 - β) ^ 2 / ((1 - β) ^ 2 + β ^ 2) := by
  have h1 := mul_nonneg (mul_nonneg hb.1 (sub_nonneg.mpr hb.2)) hC
  refine div_le_div_of_nonneg_left (sq_nonneg _) ?_ (by linarith)
  nlinarith [sq_nonneg (1 - 2 * β)]

/-- One update of a filter at rest that is nearly aligned. -/
theorem settle_step (hi : AquaInit.Fixed i τ α β t u) (hα : 0 < α) (hset : Set i dg da dm s) (hA : Shows s A)
    (hn : ‖A‖ = 1) (hr : y.rate dg = 0) {n p q r x v z h δ ρ κ : ℝ} (hna : norm3 (y.acc da) = n)
    (h1 : star A * pureQ (y.acc da) * A = mkQ 0 p q r) (hz : r < 0) (ht : t < √((1 - r) / 2))
    (hm1 : epsilon ℝ < norm3 (y.field dm)) (h2 : star A * pureQ (dir (y.field dm)) * A = mkQ 0 x v z)
    (hh : h = √(x * x + v * v)) (hδ : 2 * α * √(2 * n) * √(n + r) ≤ δ)
    (hx : h - x + 2 * δ < 2 * (h - δ) * (1 - u ^ 2))
    (hρ : ρ = 1 - 2 * α * n / ((1 + max 1 n) ^ 2 * (1 + α ^ 2 * n ^ 2)))
    (hκ : κ = (1 - β) ^ 2 / ((1 - β) ^ 2 + β ^ 2)) :
    ∃ s' Q p' q' r' x' v' z', feed y s = (.ok (), s') ∧ Shows s' Q ∧ ‖Q‖ = 1 ∧
      star Q * pureQ (y.acc da) * Q = mkQ 0 p' q' r' ∧ star Q * pureQ (dir (y.field dm)) * Q = mkQ 0 x' v' z' ∧
      0 ≤ n + r' ∧ n + r' ≤ ρ * (n + r) ∧ h - δ ≤ √(x' * x' + v' * v') ∧
      √(x' * x' + v' * v') - x' ≤ κ * (h - x + 2 * δ) := by
  have hA1 := normSq_of_norm hn
  have hP : predQ A (y.rate dg) τ = A := by rw [hr, predQ_rest hn]
  have hg1 : unrot A (y.acc da) = ![p, q, r] := pureQ_inj ((unrot_unit hA1 _).trans (h1.trans rfl))
  have hng : norm3 ![p, q, r] = norm3 (y.acc da) := by rw [← hg1, unrot_norm hA1]
  have hpq : p ^ 2 + q ^ 2 + r ^ 2 = n ^ 2 := by rw [← hna, ← hng, norm3_sq]; rfl
  have hn0 : 0 ≤ n := hna ▸ norm3_nonneg _
  have hrn := (abs_le_of_sq_le_sq' (show r ^ 2 ≤ n ^ 2 by linarith [sq_nonneg p, sq_nonneg q]) hn0).1
  have hre : (accQ ![p, q, r]).re = √((1 - r) / 2) := by
    unfold accQ
    rw [if_pos (show (![p, q, r] : Fin 3 → ℝ) 2 < 0 from hz)]
    rfl
  obtain ⟨I, hI⟩ : ∃ I, Inter α t (accQ ![p, q, r]) I := ⟨_, Or.inl ⟨by rw [hre]; exact ht, rfl⟩⟩
  obtain ⟨hI1, ⟨p', q', r', e1, e2⟩, hV⟩ := acc_turn hi.alpha_range hz hpq rfl rfl rfl ht hI
  rw [mul_div_assoc] at e2
  have hf := tilt_factor ⟨hα, hi.alpha_range.2⟩ hz (n := n) (by linarith) rfl rfl rfl (le_max_left 1 n) (le_max_right 1 n)
  rw [← hρ] at hf
  have hB : ‖A * I‖ = 1 := by rw [norm_mul, hn, hI1, one_mul]
  have hB1 := normSq_of_norm hB
  -- the field after the first turn
  have hf1 := unrot_unit hB1 (dir (y.field dm))
  rw [back_mul, h2] at hf1
  obtain ⟨x1, hx1⟩ : ∃ x1, x1 = unrot (A * I) (dir (y.field dm)) 0 := ⟨_, rfl⟩
  obtain ⟨v1, hv1⟩ : ∃ v1, v1 = unrot (A * I) (dir (y.field dm)) 1 := ⟨_, rfl⟩
  obtain ⟨z1, hz1⟩ : ∃ z1, z1 = unrot (A * I) (dir (y.field dm)) 2 := ⟨_, rfl⟩
  rw [show pureQ (unrot (A * I) (dir (y.field dm))) = mkQ 0 x1 v1 z1 by rw [hx1, hv1, hz1]; rfl] at hf1
  have hVn : ‖mkQ 0 x v z‖ = 1 := by
    rw [← h2, norm_mul, norm_mul, norm_star, hn, one_mul, mul_one]
    exact norm_one (by rw [pureQ_normSq, dir_norm hm1]; norm_num)
  have hclose := hV (mkQ 0 x v z)
  rw [← hf1, hVn, mul_one] at hclose
  obtain ⟨c1, c2⟩ := horizontal_close (hclose.trans ((turn_le hi.alpha_range hz.le (by linarith) rfl rfl rfl).trans hδ))
  rw [← hh] at c2
  obtain ⟨H, hH⟩ : ∃ H, H = √(x1 * x1 + v1 * v1) := ⟨_, rfl⟩
  rw [← hH] at c2
  obtain ⟨c3, c4⟩ := abs_le.mp c1
  obtain ⟨c5, c6⟩ := abs_le.mp c2
  have hu2 : 0 ≤ 1 - u ^ 2 := sub_nonneg.mpr (pow_le_one₀ hi.tMag_range.1 hi.tMag_range.2)
  have hx' : H - x1 < 2 * H * (1 - u ^ 2) := by
    have := mul_le_mul_of_nonneg_right (show 2 * (h - δ) ≤ 2 * H by linarith) hu2
    linarith
  obtain ⟨hp, J, hJ, hJ1, x', v', e3, e4, e5⟩ := mag_turn z1 hi.beta_range hH hx'
  have hst : StepTo A (y.rate dg) (y.acc da) (y.field dm) τ α β t u I J := by
    refine ⟨by rw [hP, hg1]; exact hI, ?_, ?_⟩
    · rw [hP, ← hx1, ← hv1, ← hH]; exact hp
    · rw [hP, ← hx1, ← hv1]; exact hJ
  obtain ⟨s', k1, k2⟩ := fixed_ok hset.started hi hA hset.gyr hset.acc hset.mag hst
  have hQ : ‖A * I * J‖ = 1 := by rw [norm_mul, hB, hJ1, one_mul]
  rw [hP, unitOf_unit hQ] at k2
  obtain ⟨S, j1, -⟩ := magPos_parts hH hp
  rw [j1] at hJ
  obtain ⟨j2, j3⟩ := inter_axis hJ
  obtain ⟨p'', q'', e6⟩ := axis_keeps j2 j3 hJ1 p' q' r'
  refine ⟨s', A * I * J, p'', q'', r', x', v', z1, k1, k2, hQ, by rw [back_mul, back_mul, h1, e1, e6],
    by rw [back_mul, back_mul, h2, ← hf1, e3], ?_, ?_, ?_, ?_⟩
  · rw [e2]
    refine mul_nonneg (by linarith) (div_nonneg (sq_nonneg _) ?_)
    have : 0 ≤ n ^ 2 - r ^ 2 := by linarith [sq_nonneg p, sq_nonneg q]
    positivity
  · rw [e2, mul_comm]
    exact mul_le_mul_of_nonneg_right hf (by linarith)
  · rw [e4, ← hH]; linarith
  · rw [e4, ← hH, e5, mul_comm]
    have hxH : x1 ≤ H := by
      rw [hH]
      exact le_trans (le_abs_self x1) (Real.abs_le_sqrt (by linarith [mul_self_nonneg v1, sq x1]))
    rw [hκ]
    exact mul_le_mul (heading_factor hi.beta_range (Real.sqrt_nonneg _)) (by linarith) (by linarith)
      (div_nonneg (sq_nonneg _) (add_nonneg (sq_nonneg _) (sq_nonneg _)))

/-- What the attitude of a filter at rest sees, in terms of the errors. -/
structure Sees (s : Aqua XR) (a m : Fin 3 → ℝ) (n T E h : ℝ) : Prop where
  ex : ∃ Q p q r x v z, Shows s Q ∧ ‖Q‖ = 1 ∧ star Q * pureQ a * Q = mkQ 0 p q r ∧
    star Q * pureQ m * Q = mkQ 0 x v z ∧ 0 ≤ n + r ∧ n + r ≤ T ∧ h ≤ √(x * x + v * v) ∧ √(x * x + v * v) - x ≤ E

/-- Every update of a filter at rest that is nearly aligned succeeds, and the errors vanish geometrically. -/
theorem settle_all (hi : AquaInit.Fixed i τ α β t u) (hα : 0 < α) (hset : Set i dg da dm s) (hr : y.rate dg = 0)
    {n g e h D ρ κ μ C : ℝ} (hna : norm3 (y.acc da) = n) (hm1 : epsilon ℝ < norm3 (y.field dm))
    (h0 : Sees s (y.acc da) (dir (y.field dm)) n (g ^ 2) e h) (hg0 : 0 ≤ g) (he0 : 0 ≤ e)
    (hρ : ρ = 1 - 2 * α * n / ((1 + max 1 n) ^ 2 * (1 + α ^ 2 * n ^ 2)))
    (hκ : κ = (1 - β) ^ 2 / ((1 - β) ^ 2 + β ^ 2)) (hD : D = 2 * α * √(2 * n)) (hμ1 : μ < 1) (hμ2 : κ < μ)
    (hμ3 : ρ ≤ μ ^ 2) (hC : C = e + 2 * D * g / (μ - κ)) (hgn : g ^ 2 < n) (hgt : 2 * t ^ 2 < 1 + n - g ^ 2)
    (hx : C + 2 * D * g < 2 * (h - D * g / (1 - μ)) * (1 - u ^ 2)) (k : ℕ) :
    Set i dg da dm (feeds s (List.replicate k y)) ∧
    (∀ j, j < k → (feed y (feeds s (List.replicate j y))).1 = .ok ()) ∧
    Sees (feeds s (List.replicate k y)) (y.acc da) (dir (y.field dm)) n ((g * μ ^ k) ^ 2) (C * μ ^ k)
      (h - D * g * ((1 - μ ^ k) / (1 - μ))) := by
  have hκ0 : 0 ≤ κ := by rw [hκ]; exact div_nonneg (sq_nonneg _) (add_nonneg (sq_nonneg _) (sq_nonneg _))
  have hμ0 : 0 < μ := lt_of_le_of_lt hκ0 hμ2
  have hD0 : 0 ≤ D := by rw [hD]; have := hα.le; positivity
  have hDg := mul_nonneg hD0 hg0
  have hC0 : 0 ≤ C := by
    rw [hC]
    have : 0 ≤ 2 * D * g / (μ - κ) := div_nonneg (by linarith) (by linarith)
    linarith
  have hCe : e ≤ C := by
    rw [hC]
    have : 0 ≤ 2 * D * g / (μ - κ) := div_nonneg (by linarith) (by linarith)
    linarith
  have hstepE : κ * (C + 2 * D * g) ≤ C * μ := by
    have h1 : 2 * D * g ≤ C * (μ - κ) := by
      rw [hC, add_mul, div_mul_cancel₀ _ (by linarith)]
      have := mul_nonneg he0 (show 0 ≤ μ - κ by linarith)
      linarith
    have h2 : κ * (2 * D * g) ≤ 1 * (2 * D * g) := mul_le_mul_of_nonneg_right (by linarith) (by linarith)
    linarith
  have hsnoc : ∀ (k : ℕ) (s : Aqua XR), feeds s (List.replicate (k + 1) y) = (feed y (feeds s (List.replicate k y))).2 := by
    intro k
    induction k with
    | zero => intro s; rfl
    | succ k ih => intro s; exact ih (feed y s).2
  induction k with
  | zero =>
    obtain ⟨Q, p, q, r, x, v, z, k1, k2, k3, k4, k5, k6, k7, k8⟩ := h0
    refine ⟨hset, fun j hj => absurd hj (by omega), ⟨Q, p, q, r, x, v, z, k1, k2, k3, k4, k5, ?_, ?_, ?_⟩⟩
    · simpa using k6
    · simpa using k7
    · simpa using k8.trans hCe
  | succ k ih =>
    obtain ⟨hset', hok, Q, p, q, r, x, v, z, k1, k2, k3, k4, k5, k6, k7, k8⟩ := ih
    rw [hsnoc]
    obtain ⟨s1, hs1⟩ : ∃ s1, s1 = feeds s (List.replicate k y) := ⟨_, rfl⟩
    rw [← hs1] at hset' k1 ⊢
    rw [pow_succ μ k]
    obtain ⟨m, hm⟩ : ∃ m, m = μ ^ k := ⟨_, rfl⟩
    have hm0 : 0 < m := hm ▸ pow_pos hμ0 k
    have hm2 : m ≤ 1 := hm ▸ pow_le_one₀ hμ0.le hμ1.le
    rw [← hm] at k6 k7 k8 ⊢
    clear hm h0 hset
    have hgm : (g * m) ^ 2 ≤ g ^ 2 := pow_le_pow_left₀ (mul_nonneg hg0 hm0.le) (mul_le_of_le_one_right hg0 hm2) 2
    have hsq : √(n + r) ≤ g * m := Real.sqrt_le_iff.mpr ⟨mul_nonneg hg0 hm0.le, k6⟩
    have hrt : t < √((1 - r) / 2) := Real.lt_sqrt_of_sq_lt (by linarith)
    have hδ : 2 * α * √(2 * n) * √(n + r) ≤ D * g * m := by
      rw [← hD, mul_assoc]
      exact mul_le_mul_of_nonneg_left hsq hD0
    have hsum : (1 - m) / (1 - μ) + m = (1 - m * μ) / (1 - μ) := by
      have : 1 - μ ≠ 0 := by linarith
      field_simp
      ring
    have hsum2 : (1 - m * μ) / (1 - μ) ≤ 1 / (1 - μ) :=
      div_le_div_of_nonneg_right (by linarith [mul_pos hm0 hμ0]) (by linarith)
    have hH : h - D * g * ((1 - m * μ) / (1 - μ)) ≤ √(x * x + v * v) - D * g * m := by
      rw [← hsum]
      linarith
    have hH2 : h - D * g / (1 - μ) ≤ √(x * x + v * v) - D * g * m := by
      have := mul_le_mul_of_nonneg_left hsum2 hDg
      rw [← div_eq_mul_one_div] at this
      linarith
    have hu2 : 0 ≤ 1 - u ^ 2 := sub_nonneg.mpr (pow_le_one₀ hi.tMag_range.1 hi.tMag_range.2)
    have hlt : √(x * x + v * v) - x + 2 * (D * g * m) < 2 * (√(x * x + v * v) - D * g * m) * (1 - u ^ 2) := by
      have j1 := mul_le_mul_of_nonneg_right (mul_le_mul_of_nonneg_left hH2 (zero_le_two (α := ℝ))) hu2
      have j2 := mul_le_mul_of_nonneg_left hm2 hC0
      have j3 := mul_le_mul_of_nonneg_left hm2 hDg
      linarith
    obtain ⟨s', Q', p', q', r', x', v', z', l1, l2, l3, l4, l5, l6, l7, l8, l9⟩ := settle_step hi hα hset' k1 k2 hr hna k3
      (by linarith) hrt hm1 k4 rfl hδ hlt hρ hκ
    have hs' : (feed y s1).2 = s' := by rw [l1]
    refine ⟨hset'.feed y, ?_, ⟨Q', p', q', r', x', v', z', by rw [hs']; exact l2, l3, l4, l5, l6, ?_, ?_, ?_⟩⟩
    · intro j hj
      rcases Nat.lt_succ_iff_lt_or_eq.mp hj with hj | rfl
      · exact hok j hj
      · rw [← hs1, l1]
    · refine l7.trans ?_
      calc ρ * (n + r) ≤ μ ^ 2 * (n + r) := mul_le_mul_of_nonneg_right hμ3 k5
        _ ≤ μ ^ 2 * (g * m) ^ 2 := mul_le_mul_of_nonneg_left k6 (sq_nonneg _)
        _ = (g * (m * μ)) ^ 2 := by ring
    · exact hH.trans l8
    · refine l9.trans ?_
      calc κ * (√(x * x + v * v) - x + 2 * (D * g * m)) ≤ κ * (C * m + 2 * (D * g * m)) :=
            mul_le_mul_of_nonneg_left (by linarith) hκ0
        _ = κ * (C + 2 * D * g) * m := by ring
        _ ≤ C * μ * m := mul_le_mul_of_nonneg_right hstepE hm0.le
        _ = C * (m * μ) := by ring

end
end Aqua

open Aqua
section
variable {s s' : Aqua XR} {i : AquaInit XR} {A : Quaternion ℝ} {τ α β t u : ℝ}
  {dg : GyrometerConfig ℝ} {da : AccelerometerConfig ℝ} {dm : MagnetometerConfig ℝ} {y : Sample}

/-- C110: a MARG filter without adaptive gain, both gains positive, at rest.  For an acceleration of norm `n`, a
field of norm `b` and a horizontal part of at least `η` there is a neighbourhood of the alignment from which
every one of any number of updates with the same readings succeeds, and the tilt and the heading error both
vanish geometrically. -/
theorem C110_settle (hi : AquaInit.Fixed i τ α β t u) (hα : 0 < α) (hβ : 0 < β) (hu : u < 1) {n b η : ℝ} (hn0 : 0 < n)
    (ht : t < √((1 + n) / 2)) (hb : epsilon ℝ < b) (hη : 0 < η) :
    ∃ ε C μ : ℝ, 0 < ε ∧ 0 < μ ∧ μ < 1 ∧ ∀ {s : Aqua XR} {A : Quaternion ℝ} {y : Sample} {p q r x v z : ℝ},
      Started i s → s.getGyrometerConfig = .ok dg.fin → s.getAccelerometerConfig = .ok da.fin →
      s.getMagnetometerConfig = .ok dm.fin → Shows s A → ‖A‖ = 1 → y.rate dg = 0 →
      norm3 (y.acc da) = n → norm3 (y.field dm) = b →
      star A * pureQ (y.acc da) * A = mkQ 0 p q r → star A * pureQ (y.field dm) * A = mkQ 0 x v z →
      n + r < ε → √(x * x + v * v) - x < ε → η ≤ √(x * x + v * v) →
      ∀ k, (feed y (feeds s (List.replicate k y))).1 = .ok () ∧
        ∃ Q p' q' r' x' v' z', Shows (feeds s (List.replicate k y)) Q ∧ ‖Q‖ = 1 ∧
          star Q * pureQ (y.acc da) * Q = mkQ 0 p' q' r' ∧ star Q * pureQ (y.field dm) * Q = mkQ 0 x' v' z' ∧
          0 ≤ n + r' ∧ n + r' ≤ C * μ ^ k ∧ η / 2 ≤ √(x' * x' + v' * v') ∧
          √(x' * x' + v' * v') - x' ≤ C * μ ^ k := by
  obtain ⟨ρ, hρ⟩ : ∃ ρ, ρ = 1 - 2 * α * n / ((1 + max 1 n) ^ 2 * (1 + α ^ 2 * n ^ 2)) := ⟨_, rfl⟩
  obtain ⟨κ, hκ⟩ : ∃ κ, κ = (1 - β) ^ 2 / ((1 - β) ^ 2 + β ^ 2) := ⟨_, rfl⟩
  obtain ⟨D, hD⟩ : ∃ D, D = 2 * α * √(2 * n) := ⟨_, rfl⟩
  obtain ⟨μ, hμ⟩ : ∃ μ, μ = max ((1 + κ) / 2) √ρ := ⟨_, rfl⟩
  have hb0 : 0 < b := Linalg.eps_pos.trans hb
  have hρ1 : ρ < 1 := by
    rw [hρ]
    have : 0 < 2 * α * n / ((1 + max 1 n) ^ 2 * (1 + α ^ 2 * n ^ 2)) := by positivity
    linarith
  have hκ1 : κ < 1 := by
    rw [hκ, div_lt_one (by positivity)]
    linarith [pow_pos hβ 2]
  have hκ0 : 0 ≤ κ := by rw [hκ]; positivity
  have hμ1 : μ < 1 := by
    rw [hμ, max_lt_iff]
    refine ⟨by linarith, ?_⟩
    rw [Real.sqrt_lt' one_pos]
    linarith
  have hμ2 : κ < μ := lt_of_lt_of_le (by linarith) (hμ ▸ le_max_left _ _)
  have hμ0 : 0 < μ := lt_of_le_of_lt hκ0 hμ2
  have hμ3 : ρ ≤ μ ^ 2 := (Real.sqrt_le_left hμ0.le).mp (hμ ▸ le_max_right _ _)
  have hD0 : 0 ≤ D := by rw [hD]; positivity
  obtain ⟨B, hB⟩ : ∃ B, B = 2 * D / (μ - κ) + 2 * D + 2 * D / (1 - μ) := ⟨_, rfl⟩
  have hB1 : 0 ≤ 2 * D / (μ - κ) := div_nonneg (by linarith) (by linarith)
  have hB2 : 0 ≤ 2 * D / (1 - μ) := div_nonneg (by linarith) (by linarith)
  have hB0 : 0 ≤ B := by rw [hB]; linarith
  have hu0 : 0 < 1 - u ^ 2 := by linarith [pow_lt_one₀ hi.tMag_range.1 hu two_ne_zero]
  have hu1 : 1 - u ^ 2 ≤ 1 := by linarith [sq_nonneg u]
  obtain ⟨η', hη'⟩ : ∃ η', η' = η / b := ⟨_, rfl⟩
  have hη0 : 0 < η' := hη' ▸ div_pos hη hb0
  obtain ⟨c, hc⟩ : ∃ c, c = 2 * η' * (1 - u ^ 2) := ⟨_, rfl⟩
  have hc0 : 0 < c := by rw [hc]; positivity
  have hc1 : c ≤ 2 * η' := by rw [hc]; exact mul_le_of_le_one_right (by linarith) hu1
  obtain ⟨G, hG⟩ : ∃ G, G = c / (2 * (B + 1)) := ⟨_, rfl⟩
  have hG0 : 0 < G := by rw [hG]; positivity
  have hBG : (B + 1) * G = c / 2 := by
    rw [hG]
    field_simp
  have htn : 0 < 1 + n - 2 * t ^ 2 := by
    have := (Real.lt_sqrt hi.tAcc_range.1).mp ht
    linarith
  obtain ⟨ε, hε⟩ : ∃ ε, ε = min (min (G ^ 2) (b * (c / 2))) (min n (1 + n - 2 * t ^ 2)) := ⟨_, rfl⟩
  have hε1 : ε ≤ G ^ 2 := hε ▸ (min_le_left _ _).trans (min_le_left _ _)
  have hε2 : ε ≤ b * (c / 2) := hε ▸ (min_le_left _ _).trans (min_le_right _ _)
  have hε3 : ε ≤ n := hε ▸ (min_le_right _ _).trans (min_le_left _ _)
  have hε4 : ε ≤ 1 + n - 2 * t ^ 2 := hε ▸ (min_le_right _ _).trans (min_le_right _ _)
  have hε0 : 0 < ε := by
    rw [hε]
    exact lt_min (lt_min (pow_pos hG0 2) (mul_pos hb0 (by linarith))) (lt_min hn0 htn)
  refine ⟨ε, ε + b * c, μ, hε0, hμ0, hμ1, ?_⟩
  intro s A y p q r x v z hs hg ha hm hA hA1 hr hna hnb h1 h2 hT hE hh
  have hN := normSq_of_norm hA1
  have hg1 : unrot A (y.acc da) = ![p, q, r] := pureQ_inj ((unrot_unit hN _).trans (h1.trans rfl))
  have hng : norm3 ![p, q, r] = n := by rw [← hg1, unrot_norm hN, hna]
  have hpq : p ^ 2 + q ^ 2 + r ^ 2 = n ^ 2 := by rw [← hng, norm3_sq]; rfl
  have hrn := (abs_le_of_sq_le_sq' (show r ^ 2 ≤ n ^ 2 by linarith [sq_nonneg p, sq_nonneg q]) hn0.le).1
  have hm1 : epsilon ℝ < norm3 (y.field dm) := by rw [hnb]; exact hb
  have hroot : ∀ a c : ℝ, √(b * a * (b * a) + b * c * (b * c)) = b * √(a * a + c * c) := by
    intro a c
    rw [show b * a * (b * a) + b * c * (b * c) = b ^ 2 * (a * a + c * c) by ring, Real.sqrt_mul (sq_nonneg b),
      Real.sqrt_sq hb0.le]
  have hscale : ∀ Q : Quaternion ℝ, star Q * pureQ (y.field dm) * Q = b • (star Q * pureQ (dir (y.field dm)) * Q) := by
    intro Q
    rw [dir_smul hm1, hnb, mul_smul_comm, smul_mul_assoc]
  -- the direction of the field
  have h3 : star A * pureQ (dir (y.field dm)) * A = mkQ 0 (b⁻¹ * x) (b⁻¹ * v) (b⁻¹ * z) := by
    rw [hscale] at h2
    have := congrArg (fun w => b⁻¹ • w) h2
    simp only [smul_smul, inv_mul_cancel₀ hb0.ne', one_smul, mkQ_smul, mul_zero] at this
    exact this
  have hx1 : b * (b⁻¹ * x) = x := mul_inv_cancel_left₀ hb0.ne' x
  have hv1 : b * (b⁻¹ * v) = v := mul_inv_cancel_left₀ hb0.ne' v
  have hroot' := hroot (b⁻¹ * x) (b⁻¹ * v)
  rw [hx1, hv1] at hroot'
  rw [hroot'] at hE hh
  generalize hX : b⁻¹ * x = X at *
  generalize hY : b⁻¹ * v = Y at *
  rw [← hx1] at hE
  obtain ⟨g, hgd⟩ : ∃ g, g = √(n + r) := ⟨_, rfl⟩
  have hg0 : 0 ≤ g := hgd ▸ Real.sqrt_nonneg _
  have hg2 : g ^ 2 = n + r := by rw [hgd, Real.sq_sqrt (by linarith)]
  have hgG : g ≤ G := by
    rw [hgd]
    exact Real.sqrt_le_iff.mpr ⟨hG0.le, by linarith⟩
  obtain ⟨e, he⟩ : ∃ e, e = √(X * X + Y * Y) - X := ⟨_, rfl⟩
  have he0 : 0 ≤ e := by
    rw [he, sub_nonneg]
    exact le_trans (le_abs_self X) (Real.abs_le_sqrt (by linarith [mul_self_nonneg Y, sq X]))
  have he1 : e < c / 2 := by
    refine lt_of_mul_lt_mul_left ?_ hb0.le
    rw [he]
    linarith
  have hBg : B * g ≤ c / 2 := by
    have := mul_le_mul_of_nonneg_left hgG hB0
    linarith
  have hsplit : B * g = 2 * D * g / (μ - κ) + 2 * D * g + 2 * (D * g / (1 - μ)) := by rw [hB]; ring
  have hs1 : 0 ≤ 2 * D * g / (μ - κ) := div_nonneg (mul_nonneg (by linarith) hg0) (by linarith)
  have hs2 : 0 ≤ D * g / (1 - μ) := div_nonneg (mul_nonneg hD0 hg0) (by linarith)
  have hs3 : 0 ≤ 2 * D * g := mul_nonneg (by linarith) hg0
  have hη1 : η' ≤ √(X * X + Y * Y) := by
    rw [hη', div_le_iff₀ hb0]
    linarith
  have h0 : Sees s (y.acc da) (dir (y.field dm)) n (g ^ 2) e η' :=
    ⟨A, p, q, r, X, Y, _, hA, hA1, h1, h3, by linarith, hg2.ge, hη1, he.ge⟩
  have hcond : e + 2 * D * g / (μ - κ) + 2 * D * g < 2 * (η' - D * g / (1 - μ)) * (1 - u ^ 2) := by
    have := mul_le_mul_of_nonneg_left hu1 hs2
    have e1 : 2 * (η' - D * g / (1 - μ)) * (1 - u ^ 2) = c - 2 * (D * g / (1 - μ) * (1 - u ^ 2)) := by rw [hc]; ring
    rw [e1]
    linarith
  have key := settle_all hi hα ⟨hs, hg, ha, hm⟩ hr hna hm1 h0 hg0 he0 hρ hκ hD hμ1 hμ2 hμ3 rfl (by linarith) (by linarith)
    hcond
  intro k
  refine ⟨(key (k + 1)).2.1 k (Nat.lt_succ_self k), ?_⟩
  obtain ⟨Q, p', q', r', x', v', z', k1, k2, k3, k4, k5, k6, k7, k8⟩ := (key k).2.2
  have hk0 : 0 < μ ^ k := pow_pos hμ0 k
  have hk1 : μ ^ k ≤ 1 := pow_le_one₀ hμ0.le hμ1.le
  refine ⟨Q, p', q', r', b * x', b * v', b * z', k1, k2, k3, by rw [hscale, k4, mkQ_smul, mul_zero], k5, ?_, ?_, ?_⟩
  · refine k6.trans ?_
    calc (g * μ ^ k) ^ 2 = g ^ 2 * (μ ^ k * μ ^ k) := by ring
      _ ≤ ε * (μ ^ k * 1) := by
          refine mul_le_mul (by linarith) (mul_le_mul_of_nonneg_left hk1 hk0.le) (by positivity) hε0.le
      _ ≤ (ε + b * c) * μ ^ k := by
          have := mul_nonneg (mul_nonneg hb0.le hc0.le) hk0.le
          linarith
  · rw [hroot]
    have j1 : (1 - μ ^ k) / (1 - μ) ≤ 1 / (1 - μ) := div_le_div_of_nonneg_right (by linarith) (by linarith)
    have j2 := mul_le_mul_of_nonneg_left j1 (mul_nonneg hD0 hg0)
    rw [← div_eq_mul_one_div] at j2
    have j3 : η' / 2 ≤ √(x' * x' + v' * v') := by linarith
    have j4 : η = b * η' := by rw [hη']; field_simp
    rw [j4]
    have := mul_le_mul_of_nonneg_left j3 hb0.le
    linarith
  · rw [hroot, ← mul_sub]
    have j1 : e + 2 * D * g / (μ - κ) ≤ c := by linarith
    calc b * (√(x' * x' + v' * v') - x') ≤ b * ((e + 2 * D * g / (μ - κ)) * μ ^ k) := mul_le_mul_of_nonneg_left k8 hb0.le
      _ ≤ b * (c * μ ^ k) := mul_le_mul_of_nonneg_left (mul_le_mul_of_nonneg_right j1 hk0.le) hb0.le
      _ ≤ (ε + b * c) * μ ^ k := by
          have := mul_nonneg hε0.le hk0.le
          linarith

attribute [local simp] at_two

/-- C110: with full gain and the acceleration `(6, 0, -7)` the filter turns from the identity, where it sees
`-7` along the third axis, to an attitude from which it sees less. -/
example : ∃ (s s' : Aqua XR) (Q : Quaternion ℝ) (p q r : ℝ), Started (args .MARG false 1 0 1) s ∧ Shows s 1 ∧
    feed ⟨![0, 0, 0], ![6, 0, -7], ![0, 1, 0]⟩ s = (.ok (), s') ∧ Shows s' Q ∧ ‖Q‖ = 1 ∧
    star Q * pureQ ![6, 0, -7] * Q = mkQ 0 p q r ∧ r < -7 := by
  obtain ⟨s0, s, h0, hi, hs, h1, hg, ha, hm⟩ := started .MARG false 1 0 1
  have n1 : ‖(1 : Quaternion ℝ)‖ = 1 := norm_one (by simp)
  have hr : Sample.rate plainG ⟨![0, 0, 0], ![6, 0, -7], ![0, 1, 0]⟩ = 0 :=
    (plainG_rate _ _ _).trans (Quaternion.ext _ _ rfl rfl rfl rfl)
  have hacc : Sample.acc plainA ⟨![0, 0, 0], ![6, 0, -7], ![0, 1, 0]⟩ = ![6, 0, -7] := plainA_correct _ _ _
  have hfld : Sample.field plainM ⟨![0, 0, 0], ![6, 0, -7], ![0, 1, 0]⟩ = ![0, 1, 0] := plainM_correct _ _ _
  have e4 : √(4 : ℝ) = 2 := by
    rw [show (4 : ℝ) = 2 ^ 2 by norm_num, Real.sqrt_sq (by norm_num)]
  have hq : accQ ![6, 0, -7] = mkQ 2 0 (-3 / 2) 0 := by
    unfold accQ
    rw [if_pos (by norm_num)]
    norm_num [e4]
  have hI : Inter 1 (9 / 10) (accQ ![6, 0, -7]) (mkQ (4 / 5) 0 (-3 / 5) 0) := by
    rw [hq]
    refine Or.inl ⟨by norm_num, ?_⟩
    unfold lerpQ
    rw [sub_self, zero_smul, zero_add, one_smul, unitOf_mk (n := 5 / 2) (by norm_num) (by norm_num)]
    norm_num
  have u1 : unrot 1 ![6, 0, -7] = ![6, 0, -7] := by
    funext k
    fin_cases k <;> norm_num [unrot, dcmOf, tbl, Quaternion.re_one, Quaternion.imI_one, Quaternion.imJ_one,
      Quaternion.imK_one]
  have z1 : unrot (mkQ (4 / 5) 0 (-3 / 5) 0) (dir ![0, 1, 0]) = ![0, 1, 0] := by
    rw [dir_one (by unfold norm3; simp)]
    funext k
    fin_cases k <;> norm_num [unrot, dcmOf, tbl]
  have z2 : magPos 0 1 = mkQ (√(1 / 2)) 0 0 (1 / (2 * √(1 / 2))) := by
    refine magPos_one (by norm_num) ?_ (Real.sqrt_pos.mpr (by norm_num))
    rw [Real.sq_sqrt (by norm_num)]
    norm_num
  have z3 : 1 / 2 < √(1 / 2 : ℝ) := by
    rw [Real.lt_sqrt (by norm_num)]
    norm_num
  have hf := fixed_args (show (0 : ℝ) ≤ 1 ∧ (1 : ℝ) ≤ 1 by norm_num) (show (0 : ℝ) ≤ 0 ∧ (0 : ℝ) ≤ 1 by norm_num) 1
  have hst : StepTo 1 (Sample.rate plainG ⟨![0, 0, 0], ![6, 0, -7], ![0, 1, 0]⟩)
      (Sample.acc plainA ⟨![0, 0, 0], ![6, 0, -7], ![0, 1, 0]⟩)
      (Sample.field plainM ⟨![0, 0, 0], ![6, 0, -7], ![0, 1, 0]⟩) (1 / 2) 1 0 (9 / 10) (1 / 2)
      (mkQ (4 / 5) 0 (-3 / 5) 0) 1 := by
    rw [hacc, hfld, hr]
    constructor
    · rw [predQ_rest n1, u1]
      exact hI
    · rw [predQ_rest n1, one_mul, z1]
      norm_num
    · rw [predQ_rest n1, one_mul, z1]
      show Inter _ _ (magPos 0 1) _
      rw [z2]
      exact inter_zero_mk (show -1 < √(1 / 2 : ℝ) by linarith) (Or.inl z3)
  obtain ⟨s', e, h⟩ := fixed_ok hs hf h1 (hg rfl) ha hm hst
  have hn85 : norm3 ![6, 0, -7] = √85 := by
    unfold norm3
    congr 1
    norm_num
  have h85 : 9 < √(85 : ℝ) := by
    rw [Real.lt_sqrt (by norm_num)]
    norm_num
  have hsee : star (1 : Quaternion ℝ) * pureQ ![6, 0, -7] * 1 = mkQ 0 6 0 (-7) := by
    rw [star_one, one_mul, mul_one]
    rfl
  have hl2 : √((1 - -7) / 2 : ℝ) = 2 := by rw [show ((1 - -7) / 2 : ℝ) = 4 by norm_num, e4]
  obtain ⟨Q, p, q, r, k1, k2, k3, -, k5⟩ := C110_level hf one_pos hn85 [⟨![0, 0, 0], ![6, 0, -7], ![0, 1, 0]⟩] hs h1 n1
    (hg rfl) ha hm hsee (by norm_num) (by rw [hl2]; norm_num) (by
      intro y hy
      rw [List.mem_singleton] at hy
      rw [hy]
      exact ⟨hr, hacc⟩) ⟨by rw [e], trivial⟩
  refine ⟨s, s', Q, p, q, r, hs, h1, e, ?_, k2, k3, ?_⟩
  · have : feeds s [⟨![0, 0, 0], ![6, 0, -7], ![0, 1, 0]⟩] = s' := by
      show (feed _ s).2 = s'
      rw [e]
    rwa [this] at k1
  · have hp : 0 < 2 * 1 * √(85 : ℝ) / ((1 + max 1 √85) ^ 2 * (1 + 1 ^ 2 * √85 ^ 2)) := by
      have := le_max_left 1 √(85 : ℝ)
      positivity
    rw [List.length_singleton, pow_one] at k5
    have := mul_pos (show (0 : ℝ) < √85 + -7 by linarith) hp
    linarith

/-- C110: a filter with gains `1/2` and `1/3` that starts at the identity, at rest, with an acceleration and a
field both slightly off: all its updates succeed and it settles. -/
example : ∃ (s : Aqua XR) (y : Sample) (C μ : ℝ), Started (args .MARG false (1 / 2) (1 / 3) 1) s ∧ Shows s 1 ∧
    y.a 0 ≠ 0 ∧ y.m 1 ≠ 0 ∧ 0 < μ ∧ μ < 1 ∧ ∀ k, (feed y (feeds s (List.replicate k y))).1 = .ok () ∧
      ∃ Q p q r x v z, Shows (feeds s (List.replicate k y)) Q ∧ ‖Q‖ = 1 ∧
        star Q * pureQ y.a * Q = mkQ 0 p q r ∧ star Q * pureQ y.m * Q = mkQ 0 x v z ∧
        1 + r ≤ C * μ ^ k ∧ √(x * x + v * v) - x ≤ C * μ ^ k := by
  obtain ⟨s0, s, h0, hi, hs, h1, hg, ha, hm⟩ := started .MARG false (1 / 2) (1 / 3) 1
  have n1 : ‖(1 : Quaternion ℝ)‖ = 1 := norm_one (by simp)
  have hf := fixed_args (show (0 : ℝ) ≤ 1 / 2 ∧ (1 / 2 : ℝ) ≤ 1 by norm_num)
    (show (0 : ℝ) ≤ 1 / 3 ∧ (1 / 3 : ℝ) ≤ 1 by norm_num) 1
  obtain ⟨ε, C, μ, hε, hμ0, hμ1, key⟩ := C110_settle (dg := plainG) (da := plainA) (dm := plainM) hf (by norm_num)
    (by norm_num) (by norm_num) (n := 1) (b := 1) (η := 1) one_pos (by norm_num) AR.eps_lt_one one_pos
  obtain ⟨k, hk⟩ : ∃ k, k = min 1 (ε / 4) := ⟨_, rfl⟩
  have hk0 : 0 < k := hk ▸ lt_min one_pos (by linarith)
  have hk1 : k ≤ 1 := hk ▸ min_le_left _ _
  have hk2 : k ≤ ε / 4 := hk ▸ min_le_right _ _
  obtain ⟨S, hS⟩ : ∃ S, S = 2 * k / (1 + k ^ 2) := ⟨_, rfl⟩
  obtain ⟨c, hc⟩ : ∃ c, c = (1 - k ^ 2) / (1 + k ^ 2) := ⟨_, rfl⟩
  have hS0 : 0 < S := by rw [hS]; positivity
  have hcS : c ^ 2 + S ^ 2 = 1 := by
    rw [hc, hS]
    field_simp
    ring
  have hcε : 1 - c < ε := by
    have : 1 - c = 2 * k ^ 2 / (1 + k ^ 2) := by
      rw [hc]
      field_simp
      ring
    rw [this, div_lt_iff₀ (by positivity)]
    nlinarith [mul_pos hε (pow_pos hk0 2)]
  obtain ⟨y, hy⟩ : ∃ y : Sample, y = ⟨![0, 0, 0], ![S, 0, -c], ![c, S, 0]⟩ := ⟨_, rfl⟩
  have y1 : y.rate plainG = 0 := by
    rw [hy]
    exact (plainG_rate _ _ _).trans (Quaternion.ext _ _ rfl rfl rfl rfl)
  have y2 : y.acc plainA = ![S, 0, -c] := by rw [hy]; exact plainA_correct _ _ _
  have y3 : y.field plainM = ![c, S, 0] := by rw [hy]; exact plainM_correct _ _ _
  have hroot : √(c * c + S * S) = 1 := by rw [show c * c + S * S = 1 by linarith [sq c, sq S], Real.sqrt_one]
  have key' := key (s := s) (A := 1) (y := y) (p := S) (q := 0) (r := -c) (x := c) (v := S) (z := 0) hs (hg rfl) ha hm h1 n1 y1
    (by
      rw [y2]
      unfold norm3
      rw [show (![S, 0, -c] : Fin 3 → ℝ) 0 = S from rfl, show (![S, 0, -c] : Fin 3 → ℝ) 1 = 0 from rfl,
        show (![S, 0, -c] : Fin 3 → ℝ) 2 = -c from rfl, show S ^ 2 + 0 ^ 2 + (-c) ^ 2 = 1 by linarith [hcS, neg_sq c],
        Real.sqrt_one])
    (by
      rw [y3]
      unfold norm3
      rw [show (![c, S, 0] : Fin 3 → ℝ) 0 = c from rfl, show (![c, S, 0] : Fin 3 → ℝ) 1 = S from rfl,
        show (![c, S, 0] : Fin 3 → ℝ) 2 = 0 from rfl, show c ^ 2 + S ^ 2 + 0 ^ 2 = 1 by linarith [hcS], Real.sqrt_one])
    (by rw [y2, star_one, one_mul, mul_one]; rfl) (by rw [y3, star_one, one_mul, mul_one]; rfl) (by linarith)
    (by rw [hroot]; exact hcε) hroot.ge
  refine ⟨s, y, C, μ, hs, h1, by rw [hy]; exact hS0.ne', by rw [hy]; exact hS0.ne', hμ0, hμ1, fun j => ?_⟩
  obtain ⟨k1, Q, p, q, r, x, v, z, k2, k3, k4, k5, -, k7, -, k9⟩ := key' j
  refine ⟨k1, Q, p, q, r, x, v, z, k2, k3, ?_, ?_, k7, k9⟩
  · rw [show y.a = y.acc plainA by rw [y2, hy]]; exact k4
  · rw [show y.m = y.field plainM by rw [y3, hy]]; exact k5

end
end Verif
