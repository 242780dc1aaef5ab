import Verif.Props.RoundedMarg

/-
The quaternion of the acceleration and the interpolation from the identity, in binary32 (used for C111).
-/

set_option linter.unusedSectionVars false

namespace Verif
open Scalar Finset

variable {F : Type} [Scalar F] [R : Rounded F]

namespace Aqua

/-- The quaternion of an acceleration that is not of unit norm and does not point far from down. -/
theorem accQuat_acc {x y z : F} {g : Fin 3 → ℝ} {n l : ℝ} (hn : n = norm3 g) (hn0 : 1 / 10 ^ 4 ≤ n) (hn1 : n ≤ 2 ^ 61)
    (hg : g 2 ≤ -(n / 2)) (hl : l = √((1 - g 2) / 2)) (hx : Apx x (g 0) (16 / 10 ^ 6 * n))
    (hy : Apx y (g 1) (16 / 10 ^ 6 * n)) (hz : Apx z (g 2) (16 / 10 ^ 6 * n)) :
    Finite4 (accQuaternion x y z) ∧ ‖quadQ (accQuaternion x y z) - accQ g‖ ≤ 96 / 10 ^ 6 * l ∧
      (accQ g).re = l ∧ ‖accQ g‖ ≤ 2 * l ∧ 7 / 10 ≤ l ∧ l ≤ 2 ^ 31 := by
  have hη := rη_pos
  have hη' := rη_le
  norm_num at hη' hn1 hn0
  have hnn : g 0 ^ 2 + g 1 ^ 2 + g 2 ^ 2 = n ^ 2 := by rw [hn, norm3_sq]
  have hp : 0 < (1 - g 2) / 2 := by linarith
  have hl2 : l ^ 2 = (1 - g 2) / 2 := by rw [hl, Real.sq_sqrt hp.le]
  have l0 : 0 < l := by rw [hl]; exact Real.sqrt_pos.mpr hp
  have hll : 7 / 10 ≤ l := by
    rw [hl]
    refine Real.le_sqrt_of_sq_le ?_
    norm_num
    linarith
  have hlu : l ≤ 2 ^ 31 := by
    rw [hl]
    refine Real.sqrt_le_iff.mpr ⟨by norm_num, ?_⟩
    have : g 2 ^ 2 ≤ n ^ 2 := by nlinarith [sq_nonneg (g 0), sq_nonneg (g 1)]
    have := (abs_le_of_sq_le_sq' this (by linarith)).1
    norm_num
    linarith
  have hln : n ≤ 4 * l ^ 2 := by rw [hl2]; linarith
  have g0 : |g 0| ≤ n := abs_le_of_sq_le_sq (by nlinarith [sq_nonneg (g 1), sq_nonneg (g 2)]) (by linarith)
  have g1 : |g 1| ≤ n := abs_le_of_sq_le_sq (by nlinarith [sq_nonneg (g 0), sq_nonneg (g 2)]) (by linarith)
  have hl4 : l ^ 2 ≤ 2 ^ 62 := by
    calc l ^ 2 ≤ (2 ^ 31) ^ 2 := by gcongr
      _ = _ := by norm_num
  have hzneg : (z <ᶠ lit 0) = true := by
    rw [R.lt_val hz.1 R.zero_finite, R.zero_val]
    have := (abs_le.mp hz.2).2
    norm_num at this
    linarith
  have big : (2 : ℝ) ^ 100 = 1267650600228229401496703205376 := by norm_num
  have hlb : l ^ 2 ≤ 4611686018427387904 := by norm_num at hl4; exact hl4
  have hlub : l ≤ 2147483648 := by norm_num at hlu; exact hlu
  have hlq : 49 / 100 ≤ l ^ 2 := by nlinarith
  have a1 : Apx (lit 1 -ᶠ z) (2 * l ^ 2) (642 / 10 ^ 7 * l ^ 2) := by
    rw [show 2 * l ^ 2 = 1 - g 2 by rw [hl2]; ring]
    refine (Apx.one.sub hz (B := 2 * l ^ 2) ?_ ?_).mono ?_
    · rw [show 1 - g 2 = 2 * l ^ 2 by rw [hl2]; ring, abs_of_nonneg (by positivity)]
    · rw [big]
      norm_num
      linarith
    · norm_num
      linarith
  have a2 : Apx ((lit 1 -ᶠ z) /ᶠ lit 2) (l ^ 2) (322 / 10 ^ 7 * l ^ 2) := by
    have h := a1.div Apx.two (m := 2) (c := l ^ 2) (E := 321 / 10 ^ 7 * l ^ 2) le_rfl (by norm_num)
      (by rw [mul_div_cancel_left₀ _ (two_ne_zero' ℝ), abs_of_nonneg (by positivity)]) (by norm_num; linarith)
      (by rw [big]; norm_num; linarith)
    rw [mul_div_cancel_left₀ _ (two_ne_zero' ℝ)] at h
    refine h.mono ?_
    norm_num
    linarith
  have a3 : Apx (Scalar.sqrt ((lit 1 -ᶠ z) /ᶠ lit 2)) l (171 / 10 ^ 7 * l) := by
    refine (a2.sqrt (E := 1695 / 10 ^ 8 * l) l0 (by norm_num; linarith) ?_).mono ?_
    · norm_num
      nlinarith
    · norm_num
      linarith
  have a4 : Apx (lit 2 *ᶠ Scalar.sqrt ((lit 1 -ᶠ z) /ᶠ lit 2)) (2 * l) (344 / 10 ^ 7 * l) := by
    refine (Apx.two.mul a3 (A := 2) (B := l) (by norm_num) (le_of_eq (abs_of_pos l0)) ?_).mono ?_
    · rw [big]
      norm_num
      linarith
    · norm_num
      linarith
  have quo : ∀ {w : F} {c : ℝ}, Apx w c (16 / 10 ^ 6 * n) → |c| ≤ n →
      Apx (w /ᶠ (lit 2 *ᶠ Scalar.sqrt ((lit 1 -ᶠ z) /ᶠ lit 2))) (c / (2 * l)) (666 / 10 ^ 7 * l) := by
    intro w c hw hc
    refine (hw.div a4 (m := 2 * l) (c := 2 * l) (E := 6642 / 10 ^ 8 * l) le_rfl (by norm_num; linarith) ?_ ?_ ?_).mono ?_
    · rw [abs_div, abs_of_pos (show 0 < 2 * l by linarith), div_le_iff₀ (by linarith)]
      nlinarith
    · have : 6642 / 10 ^ 8 * l * (2 * l - 344 / 10 ^ 7 * l) = 6642 / 10 ^ 8 * (2 - 344 / 10 ^ 7) * l ^ 2 := by ring
      rw [this, show 2 * l * (344 / 10 ^ 7 * l) = 2 * (344 / 10 ^ 7) * l ^ 2 by ring]
      norm_num
      linarith
    · rw [big]
      norm_num
      linarith
    · norm_num
      linarith
  have a5 := quo hy g1
  have a6 := quo hx.neg (by rwa [abs_neg])
  have hgn : g 2 < 0 := by linarith
  have hacc : accQ g = mkQ l (g 1 / (2 * l)) (-g 0 / (2 * l)) 0 := by
    unfold accQ
    rw [if_pos hgn, ← hl]
  unfold accQuaternion
  rw [hzneg, if_pos rfl, hacc]
  refine ⟨⟨a3.1, a5.1, a6.1, R.zero_finite⟩, ?_, rfl, ?_, hll, hlu⟩
  · have e : quadQ (Scalar.sqrt ((lit 1 -ᶠ z) /ᶠ lit 2), y /ᶠ (lit 2 *ᶠ Scalar.sqrt ((lit 1 -ᶠ z) /ᶠ lit 2)),
        Scalar.neg x /ᶠ (lit 2 *ᶠ Scalar.sqrt ((lit 1 -ᶠ z) /ᶠ lit 2)), lit 0) - mkQ l (g 1 / (2 * l)) (-g 0 / (2 * l)) 0 =
        mkQ (⟪Scalar.sqrt ((lit 1 -ᶠ z) /ᶠ lit 2)⟫ - l) (⟪y /ᶠ (lit 2 *ᶠ Scalar.sqrt ((lit 1 -ᶠ z) /ᶠ lit 2))⟫ - g 1 / (2 * l))
          (⟪Scalar.neg x /ᶠ (lit 2 *ᶠ Scalar.sqrt ((lit 1 -ᶠ z) /ᶠ lit 2))⟫ - -g 0 / (2 * l)) 0 := by
      apply Quaternion.ext <;> simp [quadQ, R.zero_val]
    rw [e, norm_mkQ]
    refine Real.sqrt_le_iff.mpr ⟨by positivity, ?_⟩
    have c1 := sq_le_sq' (abs_le.mp a3.2).1 (abs_le.mp a3.2).2
    have c2 := sq_le_sq' (abs_le.mp a5.2).1 (abs_le.mp a5.2).2
    have c3 := sq_le_sq' (abs_le.mp a6.2).1 (abs_le.mp a6.2).2
    rw [mul_pow] at c1 c2 c3 ⊢
    norm_num at c1 c2 c3 ⊢
    linarith
  · rw [norm_mkQ]
    refine Real.sqrt_le_iff.mpr ⟨by positivity, ?_⟩
    have : (g 1 / (2 * l)) ^ 2 + (-g 0 / (2 * l)) ^ 2 ≤ 3 * l ^ 2 := by
      rw [div_pow, div_pow, ← add_div, div_le_iff₀ (by positivity)]
      have : g 2 ^ 2 = (2 * l ^ 2 - 1) ^ 2 := by rw [hl2]; ring
      have h4 : n ^ 2 / 4 ≤ g 2 ^ 2 := by nlinarith
      have h5 : (2 * l ^ 2 - 1) ^ 2 ≤ (2 * l ^ 2) ^ 2 := by nlinarith
      nlinarith
    nlinarith

/-- The linear interpolation from the identity towards a nearly known quaternion. -/
theorem interp_acc [ScalarLawful F] {v : Vec F} {f : Nat → F} {α t : F} {Q : Quaternion ℝ} {r δ d : ℝ} (hv : VecIs v 4 f)
    (hf : ∀ i, i < 4 → Finite (f i)) (hα : Finite α) (a0 : 0 ≤ ⟪α⟫) (a1 : ⟪α⟫ ≤ 1) (ht : Finite t) (t0 : 0 ≤ ⟪t⟫)
    (t1 : ⟪t⟫ ≤ 1) (hr : Q.re = r) (r0 : 7 / 10 ≤ r) (r1 : r ≤ 2 ^ 31) (hQ : ‖Q‖ ≤ 2 * r) (hd : ‖qval f - Q‖ ≤ δ * r)
    (hδ : δ ≤ 5 / 100) (htr : ⟪t⟫ + δ * r < r) (hdd : d = 1 - ⟪α⟫ + ⟪α⟫ * r) :
    ∃ w h, interpolate v α t = .ok w ∧ VecIs w 4 h ∧ (∀ i, i < 4 → Finite (h i)) ∧ NearUnit h ∧
      ‖qval h - lerpQ ⟪α⟫ Q‖ ≤ (⟪α⟫ * (δ * r) / d + 102 / 10 ^ 8) / (1 - (⟪α⟫ * (δ * r) / d + 102 / 10 ^ 8)) + 2 / 10 ^ 6 ∧
      ‖lerpQ ⟪α⟫ Q‖ = 1 ∧ ⟪t⟫ < Q.re := by
  have hδ0 : 0 ≤ δ * r := (norm_nonneg _).trans hd
  have hδr : δ * r ≤ 5 / 100 * r := mul_le_mul_of_nonneg_right hδ (by linarith)
  have hqn : ‖qval f‖ ≤ 205 / 100 * r := by
    have := norm_sub_norm_le (qval f) Q
    linarith
  obtain ⟨p1, p2, p3⟩ := abs_im_le (qval f)
  have p0 : |(qval f).re| ≤ ‖qval f‖ := by
    have h := quat_norm_sq (qval f)
    refine abs_le_of_sq_le_sq ?_ (norm_nonneg _)
    nlinarith [sq_nonneg (qval f).imI, sq_nonneg (qval f).imJ, sq_nonneg (qval f).imK]
  have hre : |⟪f 0⟫ - r| ≤ δ * r := by
    refine le_trans ?_ hd
    have h := quat_norm_sq (qval f - Q)
    have e : (qval f - Q).re = ⟪f 0⟫ - r := by rw [← hr]; rfl
    rw [← e]
    refine abs_le_of_sq_le_sq ?_ (norm_nonneg _)
    nlinarith [sq_nonneg (qval f - Q).imI, sq_nonneg (qval f - Q).imJ, sq_nonneg (qval f - Q).imK]
  have hf2 : ∀ i, i < 4 → Finite (f i) ∧ |⟪f i⟫| ≤ 2 ^ 120 := by
    have hb : ‖qval f‖ ≤ 2 ^ 120 := by
      norm_num at r1 ⊢
      linarith
    exact forall_lt_four.mpr ⟨⟨hf 0 (by omega), p0.trans hb⟩, ⟨hf 1 (by omega), p1.trans hb⟩, ⟨hf 2 (by omega), p2.trans hb⟩,
      ⟨hf 3 (by omega), p3.trans hb⟩⟩
  obtain ⟨w1, e1, k1⟩ := identity_run (F := F)
  have hz := Vec.zeros_is (F := F) (n := 4) (by omega) (by omega)
  have hid : ∀ i, i < 4 → Finite (seq4 (lit 1 : F) (lit 0) (lit 0) (lit 0) i) ∧ |⟪seq4 (lit 1 : F) (lit 0) (lit 0) (lit 0) i⟫| ≤ 2 ^ 120 := by
    refine forall_lt_four.mpr ⟨⟨R.one_finite, ?_⟩, ⟨R.zero_finite, ?_⟩, ⟨R.zero_finite, ?_⟩, ⟨R.zero_finite, ?_⟩⟩ <;>
      simp only [seq4, R.one_val, R.zero_val] <;> norm_num
  obtain ⟨w2, h, e2, k2, k3⟩ := C105_lerp hz k1 hv hid hf2 hα a0 a1
  have ha1 : 0 ≤ 1 - ⟪α⟫ := by linarith
  have hd0 : 7 / 10 ≤ d := by
    rw [hdd]
    nlinarith
  have hdp : 0 < d := by linarith
  have hdr : ⟪α⟫ * r ≤ d := by rw [hdd]; linarith
  set L := (1 - ⟪α⟫) • (1 : Quaternion ℝ) + ⟪α⟫ • Q with hL
  have hLre : L.re = d := by
    rw [hL, hdd, ← hr]
    simp [Quaternion.re_one]
  have hLlo : d ≤ ‖L‖ := by
    have h := quat_norm_sq L
    rw [hLre] at h
    refine (abs_le_of_sq_le_sq' (a := d) ?_ (norm_nonneg _)).2
    nlinarith [sq_nonneg L.imI, sq_nonneg L.imJ, sq_nonneg L.imK]
  have hLhi : ‖L‖ ≤ 2 ^ 62 := by
    refine (norm_add_le _ _).trans ?_
    rw [norm_smul, norm_smul, Real.norm_eq_abs, Real.norm_eq_abs, abs_of_nonneg ha1, abs_of_nonneg a0, norm_one (map_one _)]
    have : ⟪α⟫ * ‖Q‖ ≤ 1 * (2 * r) := mul_le_mul a1 hQ (norm_nonneg _) (by norm_num)
    norm_num at r1 ⊢
    linarith
  have comp : ∀ i, i < 4 → |⟪h i⟫ - ((1 - ⟪α⟫) * ⟪seq4 (lit 1 : F) (lit 0) (lit 0) (lit 0) i⟫ + ⟪α⟫ * ⟪f i⟫)| ≤
      51 / 10 ^ 8 * d := by
    intro i hi
    refine (k3 i hi).2.trans ?_
    have hfi : |⟪f i⟫| ≤ 205 / 100 * r := by
      revert i
      exact forall_lt_four.mpr ⟨p0.trans hqn, p1.trans hqn, p2.trans hqn, p3.trans hqn⟩
    have hei : |⟪seq4 (lit 1 : F) (lit 0) (lit 0) (lit 0) i⟫| ≤ 1 := by
      revert i
      refine forall_lt_four.mpr ⟨?_, ?_, ?_, ?_⟩ <;> simp only [seq4, R.one_val, R.zero_val] <;> norm_num
    have q1 : (1 - ⟪α⟫) * |⟪seq4 (lit 1 : F) (lit 0) (lit 0) (lit 0) i⟫| ≤ (1 - ⟪α⟫) * 1 := mul_le_mul_of_nonneg_left hei ha1
    have q2 : ⟪α⟫ * |⟪f i⟫| ≤ ⟪α⟫ * (205 / 100 * r) := mul_le_mul_of_nonneg_left hfi a0
    have q3 : 0 ≤ ⟪α⟫ * r := mul_nonneg a0 (by linarith)
    generalize |⟪f i⟫| = x at *
    generalize |⟪seq4 (lit 1 : F) (lit 0) (lit 0) (lit 0) i⟫| = y at *
    norm_num at r1 ⊢
    linarith
  have hLf : ‖qval h - ((1 - ⟪α⟫) • (1 : Quaternion ℝ) + ⟪α⟫ • qval f)‖ ≤ 102 / 10 ^ 8 * d := by
    refine (norm_le_two (e := 51 / 10 ^ 8 * d) ?_ ?_ ?_ ?_).trans (by linarith)
    · have := comp 0 (by omega)
      simpa [seq4, R.one_val, qval, Quaternion.re_one] using this
    · have := comp 1 (by omega)
      simpa [seq4, R.zero_val, qval, Quaternion.imI_one, Quaternion.imJ_one, Quaternion.imK_one] using this
    · have := comp 2 (by omega)
      simpa [seq4, R.zero_val, qval, Quaternion.imI_one, Quaternion.imJ_one, Quaternion.imK_one] using this
    · have := comp 3 (by omega)
      simpa [seq4, R.zero_val, qval, Quaternion.imI_one, Quaternion.imJ_one, Quaternion.imK_one] using this
  have hLd : ‖qval h - L‖ ≤ (⟪α⟫ * (δ * r) / d + 102 / 10 ^ 8) * d := by
    have t2 : ‖((1 - ⟪α⟫) • (1 : Quaternion ℝ) + ⟪α⟫ • qval f) - L‖ ≤ ⟪α⟫ * (δ * r) := by
      rw [hL, add_sub_add_left_eq_sub, ← smul_sub, norm_smul, Real.norm_eq_abs, abs_of_nonneg a0]
      exact mul_le_mul_of_nonneg_left hd a0
    have := norm_sub_le_norm_sub_add_norm_sub (qval h) ((1 - ⟪α⟫) • (1 : Quaternion ℝ) + ⟪α⟫ • qval f) L
    rw [add_mul, div_mul_cancel₀ _ hdp.ne']
    linarith
  have hq : ⟪α⟫ * (δ * r) / d ≤ 5 / 100 := by
    rw [div_le_iff₀ hdp]
    nlinarith
  obtain ⟨w3, g, e3, k4, k5, k6, k7⟩ := normalize_rel k2 (fun i hi => (k3 i hi).1) (by linarith) hLlo hLhi hLd (by linarith)
  have hlt : ⟪t⟫ < ⟪f 0⟫ := by linarith [(abs_le.mp hre).1]
  refine ⟨w3, g, ?_, k4, k5, k6, k7, ?_, by rw [hr]; linarith⟩
  · have hv' : VecIs v 4 (seq4 (f 0) (f 1) (f 2) (f 3)) := hv.congr (forall_lt_four.mpr ⟨rfl, rfl, rfl, rfl⟩)
    unfold interpolate
    simp only [alpha_ok ht t0 t1, Bool.not_true, Bool.false_eq_true, if_false,
      Vec.init_new (F := F) (n := 4) (by omega) (by omega), exec_ok e1, exec_ok e2, exec_ok e3, Res.mapErr_ok, Res.ok_bind,
      Quat.getQw_eq hv', (R.lt_val ht (hf 0 (by omega))).mpr hlt, if_true]
  · unfold lerpQ unitOf
    rw [← hL, if_pos (lt_of_lt_of_le (b := 7 / 10) (by unfold epsilon; norm_num) (hd0.trans hLlo)), norm_smul, norm_inv, norm_norm,
      inv_mul_cancel₀ (by linarith)]

end Aqua
end Verif
