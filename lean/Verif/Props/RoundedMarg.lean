import Verif.Props.RoundedArEuler
import Verif.Props.RoundedInterp
import Verif.Props.RoundedAqua
import Verif.Props.AquaStep

/-
Normalisation and the prediction of the MARG mode of the AQUA filter in binary32 (used for C111).
-/

set_option linter.unusedSectionVars false

namespace Verif
open Scalar Finset

variable {F : Type} [Scalar F] [R : Rounded F]

/-! ### Normalising nearby quaternions -/

/-- The directions of two quaternions whose norms are at least `m`. -/
theorem unit_close {x y : Quaternion ℝ} {m : ℝ} (hm : 0 < m) (hx : m ≤ ‖x‖) (hy : m ≤ ‖y‖) :
    ‖‖x‖⁻¹ • x - ‖y‖⁻¹ • y‖ ≤ ‖x - y‖ / m := by
  have hx0 : 0 < ‖x‖ := by linarith
  have hy0 : 0 < ‖y‖ := by linarith
  refine abs_le_of_sq_le_sq' ?_ (by positivity) |>.2
  have e1 := norm_sub_sq_real (‖x‖⁻¹ • x) (‖y‖⁻¹ • y)
  have e2 := norm_sub_sq_real x y
  rw [real_inner_smul_left, real_inner_smul_right, norm_smul, norm_smul, norm_inv, norm_inv, norm_norm, norm_norm,
    inv_mul_cancel₀ hx0.ne', inv_mul_cancel₀ hy0.ne'] at e1
  have h1 : ‖‖x‖⁻¹ • x - ‖y‖⁻¹ • y‖ ^ 2 * (‖x‖ * ‖y‖) ≤ ‖x - y‖ ^ 2 := by
    rw [e1, e2]
    have : (1 ^ 2 - 2 * (‖x‖⁻¹ * (‖y‖⁻¹ * inner ℝ x y)) + 1 ^ 2) * (‖x‖ * ‖y‖) = 2 * (‖x‖ * ‖y‖) - 2 * inner ℝ x y := by
      field_simp
      ring
    rw [this]
    nlinarith [sq_nonneg (‖x‖ - ‖y‖)]
  rw [div_pow, le_div_iff₀ (by positivity)]
  refine le_trans (mul_le_mul_of_nonneg_left ?_ (sq_nonneg _)) h1
  rw [sq]
  exact mul_le_mul hx hy hm.le hx0.le

theorem normalize_near {v : Vec F} {f : Nat → F} (hv : VecIs v 4 f) (hf : ∀ i, i < 4 → Finite (f i))
    (h1 : 10001 / 10 ^ 8 < ‖qval f‖) (h2 : ‖qval f‖ ≤ 2 ^ 63) :
    ∃ w g, v.normalize = (.ok (), w) ∧ VecIs w 4 g ∧ (∀ i, i < 4 → Finite (g i)) ∧ NearUnit g ∧
      ‖qval g - ‖qval f‖⁻¹ • qval f‖ ≤ 2 / 10 ^ 6 := by
  obtain ⟨w, g, e, hw, hg, hc⟩ := C77_normalize hv hf
  rw [← norm_qval] at hc
  rcases hc with ⟨-, hc | hc⟩ | ⟨c1, c2, -⟩
  · exact absurd hc (not_le.mpr h1)
  · exact absurd hc (not_lt.mpr h2)
  · refine ⟨w, g, e, hw, hg, by unfold NearUnit; rw [norm_qval]; exact c1, ?_⟩
    generalize ‖qval f‖ = K at *
    refine (norm_le_two (e := 1 / 10 ^ 6) ?_ ?_ ?_ ?_).trans (by norm_num)
    · simpa [qval, div_eq_inv_mul] using c2 0 (by omega)
    · simpa [qval, div_eq_inv_mul] using c2 1 (by omega)
    · simpa [qval, div_eq_inv_mul] using c2 2 (by omega)
    · simpa [qval, div_eq_inv_mul] using c2 3 (by omega)

/-- Normalising a computed quaternion whose relative error is `r`. -/
theorem normalize_rel {v : Vec F} {f : Nat → F} (hv : VecIs v 4 f) (hf : ∀ i, i < 4 → Finite (f i))
    {X : Quaternion ℝ} {m r : ℝ} (hm : 1 / 10 ≤ m) (hX : m ≤ ‖X‖) (hX' : ‖X‖ ≤ 2 ^ 62) (hr : ‖qval f - X‖ ≤ r * m)
    (hr1 : r ≤ 1 / 2) :
    ∃ w g, v.normalize = (.ok (), w) ∧ VecIs w 4 g ∧ (∀ i, i < 4 → Finite (g i)) ∧ NearUnit g ∧
      ‖qval g - Aqua.unitOf X‖ ≤ r / (1 - r) + 2 / 10 ^ 6 := by
  have hm0 : 0 < m := by linarith
  have hr0 : 0 ≤ r := by
    by_contra h
    have := (norm_nonneg _).trans hr
    nlinarith
  have d := abs_le.mp ((abs_norm_sub_norm_le (qval f) X).trans hr)
  have hrm : r * m ≤ 1 / 2 * m := mul_le_mul_of_nonneg_right hr1 hm0.le
  have hlo : (1 - r) * m ≤ ‖qval f‖ := by linarith [d.1]
  obtain ⟨w, g, e, hw, hg, hn, k⟩ := normalize_near hv hf (by norm_num; linarith) (by
    have : m ≤ 2 ^ 62 := hX.trans hX'
    norm_num at this hX' ⊢
    linarith [d.2])
  refine ⟨w, g, e, hw, hg, hn, ?_⟩
  have hm' : (1 - r) * m ≤ ‖X‖ := by
    have : 0 ≤ r * m := by positivity
    linarith
  have h1r : 0 < 1 - r := by linarith
  have hu := unit_close (m := (1 - r) * m) (by positivity) hlo hm'
  have hun : Aqua.unitOf X = ‖X‖⁻¹ • X := by
    unfold Aqua.unitOf
    rw [if_pos (lt_of_lt_of_le (b := 1 / 10) (by unfold epsilon; norm_num) (hm.trans hX))]
  have hu' : ‖qval f - X‖ / ((1 - r) * m) ≤ r / (1 - r) := by
    rw [div_le_div_iff₀ (by positivity) h1r]
    calc ‖qval f - X‖ * (1 - r) ≤ r * m * (1 - r) := by gcongr
      _ = _ := by ring
  rw [hun]
  have := norm_sub_le_norm_sub_add_norm_sub (qval g) (‖qval f‖⁻¹ • qval f) (‖X‖⁻¹ • X)
  linarith

/-! ### The prediction -/

/-- One component of the step from the rates: half of a row times the attitude, times the period. -/
theorem rate_row [H : Halves F] {a v : Nat → F} {t : F} {N V : ℝ} (ha : ∀ j, j < 4 → Finite (a j))
    (hv : ∀ j, j < 4 → Finite (v j)) (ht : Finite t) (hN : norm2 4 (fun j => ⟪a j⟫) ≤ N) (hV : norm2 4 (fun j => ⟪v j⟫) ≤ V)
    (hN' : N ≤ 2 ^ 63) (hV' : V ≤ 2) (hb : N * |⟪t⟫| ≤ 2 ^ 60) (hb' : |⟪t⟫| ≤ 2 ^ 100) :
    (∀ j, j < 4 → Finite (a j *ᶠ lit (1 / 2))) ∧ (∀ k, k ≤ 4 → Finite (sumUp k fun j => (a j *ᶠ lit (1 / 2)) *ᶠ v j)) ∧
      Finite ((sumUp 4 fun j => (a j *ᶠ lit (1 / 2)) *ᶠ v j) *ᶠ t) ∧
      |⟪(sumUp 4 fun j => (a j *ᶠ lit (1 / 2)) *ᶠ v j) *ᶠ t⟫ - ⟪t⟫ / 2 * ∑ j ∈ range 4, ⟪a j⟫ * ⟪v j⟫| ≤
        142 / 10 / 2 ^ 24 * (N * |⟪t⟫| / 2 * V) + 1 / 10 ^ 12 := by
  have hη := rη_pos
  have hη' := rη_le
  have hN0 : 0 ≤ N := (norm2_nonneg _ _).trans hN
  have hV0 : 0 ≤ V := (norm2_nonneg _ _).trans hV
  have ht0 := abs_nonneg ⟪t⟫
  have v2 : ⟪(lit (1 / 2) : F)⟫ = 1 / 2 := sub_eq_zero.mp (abs_eq_zero.mp (le_antisymm H.half.2 (abs_nonneg _)))
  have hv2 : ∀ j, j < 4 → |⟪v j⟫| ≤ 2 := fun j hj => (norm2_elem_le (fun i => ⟪v i⟫) hj).trans (hV.trans hV')
  have h1 : ∀ j, j < 4 → Finite (a j *ᶠ lit (1 / 2)) ∧ |⟪a j *ᶠ lit (1 / 2)⟫ - ⟪a j⟫ / 2| ≤ |⟪a j⟫| / 2 / 16777216 + rη := by
    intro j hj
    have hj' : |⟪a j⟫| ≤ 2 ^ 63 := (norm2_elem_le (fun i => ⟪a i⟫) hj).trans (hN.trans hN')
    have e : |⟪a j⟫ * (1 / 2)| = |⟪a j⟫| / 2 := by rw [abs_mul, abs_of_pos (a := (1 / 2 : ℝ)) (by norm_num)]; ring
    have f1 : Finite (a j *ᶠ lit (1 / 2)) := R.mul_finite (ha j hj) H.half.1 (by
      rw [v2, e]
      norm_num at hj' ⊢
      linarith)
    have h1 := (R.mul_near (ha j hj) H.half.1 f1).bound
    rw [v2, e] at h1
    exact ⟨f1, by rw [show ⟪a j⟫ / 2 = ⟪a j⟫ * (1 / 2) by ring]; exact h1⟩
  set b : Nat → F := fun j => a j *ᶠ lit (1 / 2) with hbd
  have hbf : ∀ j, j < 4 → Finite (b j) := fun j hj => (h1 j hj).1
  have hc : ∑ j ∈ range 4, |⟪a j⟫ * ⟪v j⟫| ≤ N * V := by
    have := cauchy4 ⟪a 0⟫ ⟪a 1⟫ ⟪a 2⟫ ⟪a 3⟫ ⟪v 0⟫ ⟪v 1⟫ ⟪v 2⟫ ⟪v 3⟫
    simp only [norm2, Finset.sum_range_succ, Finset.sum_range_zero, zero_add] at hN hV ⊢
    exact this.trans (mul_le_mul hN hV (Real.sqrt_nonneg _) hN0)
  have hdj : ∀ j ∈ range 4, |⟪b j⟫ * ⟪v j⟫ - 1 / 2 * (⟪a j⟫ * ⟪v j⟫)| ≤ 1 / 2 / 16777216 * |⟪a j⟫ * ⟪v j⟫| + 2 * rη := by
    intro j hj
    have hj := Finset.mem_range.mp hj
    have k := mul_le_mul_of_nonneg_right (h1 j hj).2 (abs_nonneg ⟪v j⟫)
    rw [← abs_mul] at k
    rw [show ⟪b j⟫ * ⟪v j⟫ - 1 / 2 * (⟪a j⟫ * ⟪v j⟫) = (⟪b j⟫ - ⟪a j⟫ / 2) * ⟪v j⟫ by ring]
    refine k.trans ?_
    have k2 : rη * |⟪v j⟫| ≤ rη * 2 := mul_le_mul_of_nonneg_left (hv2 j hj) hη.le
    rw [abs_mul]
    linarith
  have hS : |∑ j ∈ range 4, ⟪b j⟫ * ⟪v j⟫ - 1 / 2 * ∑ j ∈ range 4, ⟪a j⟫ * ⟪v j⟫| ≤ 1 / 2 / 16777216 * (N * V) + 8 * rη := by
    rw [Finset.mul_sum, ← Finset.sum_sub_distrib]
    refine (Finset.abs_sum_le_sum_abs _ _).trans ((Finset.sum_le_sum hdj).trans ?_)
    rw [Finset.sum_add_distrib, ← Finset.mul_sum]
    simp only [Finset.sum_const, Finset.card_range, nsmul_eq_mul]
    push_cast
    linarith
  have hT : ∑ j ∈ range 4, |⟪b j⟫ * ⟪v j⟫| ≤ (1 / 2 + 1 / 2 / 16777216) * (N * V) + 8 * rη := by
    refine (Finset.sum_le_sum (g := fun j => 1 / 2 * |⟪a j⟫ * ⟪v j⟫| + (1 / 2 / 16777216 * |⟪a j⟫ * ⟪v j⟫| + 2 * rη)) fun j hj => ?_).trans ?_
    · refine le_of_dist (le_of_eq ?_) (hdj j hj)
      rw [abs_mul, abs_of_pos (a := (1 / 2 : ℝ)) (by norm_num)]
    · rw [Finset.sum_add_distrib, Finset.sum_add_distrib, ← Finset.mul_sum, ← Finset.mul_sum]
      simp only [Finset.sum_const, Finset.card_range, nsmul_eq_mul]
      push_cast
      linarith
  have hNV : N * V ≤ 2 ^ 64 := by
    calc N * V ≤ 2 ^ 63 * 2 := mul_le_mul hN' hV' hV0 (by norm_num)
      _ = _ := by norm_num
  have hNV0 : 0 ≤ N * V := mul_nonneg hN0 hV0
  have key := dot_acc (n := 4) le_rfl hbf hv (hT.trans (by norm_num at hNV hη' ⊢; linarith))
  have hE := (key 4 le_rfl).2
  have hsA : |1 / 2 * ∑ j ∈ range 4, ⟪a j⟫ * ⟪v j⟫| ≤ 1 / 2 * (N * V) := by
    rw [abs_mul, abs_of_pos (a := (1 / 2 : ℝ)) (by norm_num)]
    have := (Finset.abs_sum_le_sum_abs (fun j => ⟪a j⟫ * ⟪v j⟫) (range 4)).trans hc
    linarith
  have hfD := (key 4 le_rfl).1
  have hru : ru = 1 / 16777216 := by unfold ru; norm_num
  rw [hru] at hE
  push_cast at hE
  refine ⟨fun j hj => (h1 j hj).1, fun k hk => (key k hk).1, ?_⟩
  generalize (sumUp 4 fun j => b j *ᶠ v j) = D at *
  generalize (∑ j ∈ range 4, ⟪b j⟫ * ⟪v j⟫) = S at *
  generalize (∑ j ∈ range 4, |⟪b j⟫ * ⟪v j⟫|) = T at *
  generalize (∑ j ∈ range 4, ⟪a j⟫ * ⟪v j⟫) = A at *
  have d1 : |⟪D⟫ - 1 / 2 * A| ≤ 6505 / 1000 / 16777216 * (N * V) + 21 * rη := by
    refine (dist_trans hE hS).trans ?_
    linarith
  have d2 := le_of_dist hsA d1
  have d3 : |⟪D⟫ * ⟪t⟫ - ⟪t⟫ / 2 * A| ≤ (6505 / 1000 / 16777216 * (N * V) + 21 * rη) * |⟪t⟫| := by
    rw [show ⟪D⟫ * ⟪t⟫ - ⟪t⟫ / 2 * A = (⟪D⟫ - 1 / 2 * A) * ⟪t⟫ by ring, abs_mul]
    gcongr
  have d4 : |⟪D⟫ * ⟪t⟫| ≤ (1 / 2 * (N * V) + (6505 / 1000 / 16777216 * (N * V) + 21 * rη)) * |⟪t⟫| := by
    rw [abs_mul]
    gcongr
  have hηt : rη * |⟪t⟫| ≤ 1 / 10 ^ 14 := by
    calc rη * |⟪t⟫| ≤ 1 / 2 ^ 150 * 2 ^ 100 := by
          gcongr
          unfold rη
          exact le_rfl
      _ ≤ _ := by norm_num
  have hX : N * V * |⟪t⟫| ≤ 2 ^ 60 * 2 := by
    rw [mul_right_comm]
    exact mul_le_mul hb hV' hV0 (by norm_num)
  have hX0 : 0 ≤ N * V * |⟪t⟫| := by positivity
  have f2 : Finite (D *ᶠ t) := R.mul_finite hfD ht (d4.trans (by
    norm_num at hX hηt ⊢
    linarith))
  refine ⟨f2, (dist_trans ((R.mul_near hfD ht f2).bound) d3).trans ?_⟩
  norm_num at d4 hηt hη' ⊢
  linarith

namespace Aqua

theorem omega_norm {p q r : F} (hp : Finite p) (hq : Finite q) (hr : Finite r) : ∀ i, i < 4 →
    (∀ j, j < 4 → Finite (AR.omegaEntry p q r i j)) ∧
    norm2 4 (fun j => ⟪AR.omegaEntry p q r i j⟫) = ‖mkQ 0 ⟪p⟫ ⟪q⟫ ⟪r⟫‖ := by
  have n1 := R.neg_finite hp
  have n2 := R.neg_finite hq
  have n3 := R.neg_finite hr
  have z := R.zero_finite (F := F)
  refine forall_lt_four.mpr ⟨⟨forall_lt_four.mpr ⟨z, n1, n2, n3⟩, ?_⟩, ⟨forall_lt_four.mpr ⟨hp, z, hr, n2⟩, ?_⟩,
    ⟨forall_lt_four.mpr ⟨hq, n3, z, hp⟩, ?_⟩, ⟨forall_lt_four.mpr ⟨hr, hq, n1, z⟩, ?_⟩⟩ <;>
  · rw [norm_mkQ, norm2]
    congr 1
    simp only [Finset.sum_range_succ, Finset.sum_range_zero, AR.omegaEntry, seq4, R.neg_val hp, R.neg_val hq, R.neg_val hr,
      R.zero_val]
    ring

/-- The prediction from the rates. -/
theorem predict_acc [Halves F] {s : Aqua F} {f : Nat → F} {p q r : F} (hA : VecIs s.attitude 4 f)
    (hf : ∀ i, i < 4 → Finite (f i)) (h1 : s.gyr.getX = .ok p) (h2 : s.gyr.getY = .ok q) (h3 : s.gyr.getZ = .ok r)
    (hp : Finite p) (hq : Finite q) (hr : Finite r) (ht : Finite s.ts) {ω : Quaternion ℝ} (hω : ω = mkQ 0 ⟪p⟫ ⟪q⟫ ⟪r⟫)
    (hN : ‖ω‖ ≤ 2 ^ 63) (hb : ‖ω‖ * |⟪s.ts⟫| ≤ 2 ^ 60) (hb' : |⟪s.ts⟫| ≤ 2 ^ 100) (k1 : 1 / 2 ≤ ‖qval f‖) (k2 : ‖qval f‖ ≤ 2) :
    ∃ v g, predict s = .ok v ∧ VecIs v 4 g ∧ (∀ i, i < 4 → Finite (g i)) ∧ NearUnit g ∧
      ‖qval g - predQ (qval f) ω ⟪s.ts⟫‖ ≤ 41 / 10 ^ 7 := by
  have hη := rη_pos
  have hη' := rη_le
  have hω0 : ω.re = 0 := by rw [hω]; rfl
  obtain ⟨v1, v2, v3, e1, e2, e3, -⟩ := AR.vector3 (F := F) hp hq hr
  obtain ⟨m, e4, k4⟩ := AR.omega_ok hp hq hr (R.neg_finite hp) (R.neg_finite hq) (R.neg_finite hr)
  have hrow := fun i (hi : i < 4) => rate_row (omega_norm hp hq hr i hi).1 hf ht ((omega_norm hp hq hr i hi).2.le)
    (norm_qval f).symm.le (hω ▸ hN) k2 (hω ▸ hb) hb'
  obtain ⟨m', e5, k5⟩ := Mat.exec_of_stores (Mat.mulByScalarInPlace_stores (x := lit (1 / 2)) k4) k4
    fun i j hi hj => (hrow i hi).1 j hj
  obtain ⟨c, e6, k6⟩ := Vec.convertToMatrix_ok hA hf
  obtain ⟨d, e7, k7⟩ := Mat.mulNew_ok k5 k6 fun i j l hi hj hl => (hrow i hi).2.1 (l + 1) hl
  obtain ⟨w, e8, k8⟩ := Mat.colToVector_ok k7 (show 0 < 1 by omega) fun i hi => (hrow i hi).2.1 4 le_rfl
  obtain ⟨w', e9, k9⟩ := Vec.exec_of_stores (Vec.mulByScalarInPlace_stores (x := s.ts) k8) k8
    fun i hi => (hrow i hi).2.2.1
  have hrow' := fun i (hi : i < 4) => (hrow i hi).2.2.2
  have hfin := fun i (hi : i < 4) => (hrow i hi).2.2.1
  change VecIs w' 4 (fun i => (sumUp 4 fun j => (AR.omegaEntry p q r i j *ᶠ lit (1 / 2)) *ᶠ f j) *ᶠ s.ts) at k9
  generalize hDd : (fun i => (sumUp 4 fun j => (AR.omegaEntry p q r i j *ᶠ lit (1 / 2)) *ᶠ f j) *ᶠ s.ts) = D at k9
  have hDf : ∀ i, i < 4 → Finite (D i) := by rw [← hDd]; exact hfin
  have hD : ‖qval D - (⟪s.ts⟫ / 2) • (qval f * ω)‖ ≤ 2 * (142 / 10 / 2 ^ 24 * (‖ω‖ * |⟪s.ts⟫| / 2 * ‖qval f‖) + 1 / 10 ^ 12) := by
    rw [← hω] at hrow'
    obtain ⟨r0, r1, r2, r3⟩ := forall_lt_four.mp hrow'
    subst hDd hω
    simp only [Finset.sum_range_succ, Finset.sum_range_zero, AR.omegaEntry, seq4, R.neg_val hp, R.neg_val hq, R.neg_val hr,
      R.zero_val] at r0 r1 r2 r3
    refine norm_le_two ?_ ?_ ?_ ?_
    · convert r0 using 2
      simp [qval, Quaternion.re_mul, AR.omegaEntry, seq4]
      exact Or.inl (by ring)
    · convert r1 using 2
      simp [qval, Quaternion.imI_mul, AR.omegaEntry, seq4]
      exact Or.inl (by ring)
    · convert r2 using 2
      simp [qval, Quaternion.imJ_mul, AR.omegaEntry, seq4]
      exact Or.inl (by ring)
    · convert r3 using 2
      simp [qval, Quaternion.imK_mul, AR.omegaEntry, seq4]
      exact Or.inl (by ring)
  set X := qval f + (⟪s.ts⟫ / 2) • (qval f * ω) with hX
  have hXe : X = qval f * (1 + (⟪s.ts⟫ / 2) • ω) := by rw [hX, mul_add, mul_one, mul_smul_comm]
  have hv' : ‖(⟪s.ts⟫ / 2) • ω‖ = ‖ω‖ * |⟪s.ts⟫| / 2 := by
    rw [norm_smul, Real.norm_eq_abs, abs_div, abs_two]
    ring
  have hq0 : 0 < ‖qval f‖ := by linarith
  have hstep := AR.one_le_norm_step hω0 (⟪s.ts⟫ / 2)
  have hstep' : ‖ω‖ * |⟪s.ts⟫| / 2 ≤ ‖(1 + (⟪s.ts⟫ / 2) • ω : Quaternion ℝ)‖ := by
    rw [← hv', quat_norm, quat_norm]
    refine Real.sqrt_le_sqrt ?_
    rw [Quaternion.normSq_def', Quaternion.normSq_def']
    simp only [Quaternion.re_smul, Quaternion.imI_smul, Quaternion.imJ_smul, Quaternion.imK_smul, Quaternion.re_add,
      Quaternion.imI_add, Quaternion.imJ_add, Quaternion.imK_add, hω0, mul_zero, smul_eq_mul]
    change _ ≤ ((1 : ℝ) + 0) ^ 2 + (0 + _) ^ 2 + (0 + _) ^ 2 + (0 + _) ^ 2
    simp only [zero_add]
    linarith
  have hup : ‖(1 + (⟪s.ts⟫ / 2) • ω : Quaternion ℝ)‖ ≤ 1 + ‖ω‖ * |⟪s.ts⟫| / 2 := by
    refine (norm_add_le _ _).trans ?_
    rw [hv', norm_one (map_one _)]
  have hXn : ‖X‖ = ‖qval f‖ * ‖(1 + (⟪s.ts⟫ / 2) • ω : Quaternion ℝ)‖ := by rw [hXe, norm_mul]
  have hK0 : 0 ≤ ‖ω‖ * |⟪s.ts⟫| := by positivity
  have hXD : ‖qval f + qval D - X‖ ≤ 2 * (142 / 10 / 2 ^ 24 * (‖ω‖ * |⟪s.ts⟫| / 2 * ‖qval f‖) + 1 / 10 ^ 12) := by
    rw [hX, add_sub_add_left_eq_sub]
    exact hD
  generalize ‖(1 + (⟪s.ts⟫ / 2) • ω : Quaternion ℝ)‖ = M at *
  generalize ‖ω‖ * |⟪s.ts⟫| = K at *
  have hXlo : 1 / 2 ≤ ‖X‖ := by rw [hXn]; nlinarith
  have hXhi : ‖X‖ ≤ 2 ^ 62 := by
    rw [hXn]
    calc ‖qval f‖ * M ≤ 2 * 2 ^ 61 := by
          refine mul_le_mul k2 ?_ (by linarith) (by norm_num)
          norm_num at hb ⊢
          linarith
      _ ≤ _ := by norm_num
  have hKX : K / 2 * ‖qval f‖ ≤ ‖X‖ := by
    rw [hXn, mul_comm]
    exact mul_le_mul_of_nonneg_left hstep' hq0.le
  have hXD' : ‖qval f + qval D - X‖ ≤ 285 / 10 / 2 ^ 24 * ‖X‖ := by
    norm_num at hXD ⊢
    linarith
  have hsum : ‖qval f + qval D‖ ≤ 1001 / 1000 * ‖X‖ := by
    have := norm_sub_norm_le (qval f + qval D) X
    norm_num at hXD'
    linarith
  obtain ⟨a1, a2⟩ := quat_add_acc hf hDf hsum (by norm_num at hXhi ⊢; linarith)
  obtain ⟨x, e10, k10⟩ := Vec.exec_of_stores (Vec.add_stores (Vec.zeros_is (F := F) (n := 4) (by omega) (by omega))
    hA k9) (Vec.zeros_is (by omega) (by omega)) a1
  have hrel : ‖qval (fun i => f i +ᶠ D i) - X‖ ≤ 2 / 10 ^ 6 * ‖X‖ := by
    have := norm_sub_le_norm_sub_add_norm_sub (qval (fun i => f i +ᶠ D i)) (qval f + qval D) X
    norm_num at this a2 hXD' hη' ⊢
    linarith
  obtain ⟨y, g, e11, k11, k12, k13, k14⟩ := normalize_rel k10 a1 (by linarith) le_rfl hXhi hrel (by norm_num)
  refine ⟨y, g, ?_, k11, k12, k13, k14.trans (by norm_num)⟩
  unfold predict
  simp only [h1, h2, h3, Vec.init_new (F := F) (n := 3) (by omega) (by omega),
    Vec.init_new (F := F) (n := 4) (by omega) (by omega), e1, e2, e3, e4, e5, e6, e7, e8, e9,
    e10, exec_ok e11, Res.mapErr_ok, Res.ok_bind]

end Aqua
end Verif
