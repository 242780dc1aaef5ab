import Mathlib.Analysis.Complex.ExponentialBounds
import Verif.Props.QuatFuncs
import Verif.Props.RoundedAm
import Verif.Props.RoundedTrack

/-
The inverse and the exponential of a quaternion in binary32 (C118).
-/

set_option linter.unusedSectionVars false

namespace Verif
open Scalar Finset

variable {F : Type} [Scalar F] [R : Rounded F]

/-- A quaternion whose components are known up to a part of the components of another one. -/
theorem quat_dist {w x y z a b c d k e : ℝ} (hk : 0 ≤ k) (he : 0 ≤ e) (hw : |w| ≤ k * |a| + e) (hx : |x| ≤ k * |b| + e)
    (hy : |y| ≤ k * |c| + e) (hz : |z| ≤ k * |d| + e) : ‖mkQ w x y z‖ ≤ k * ‖mkQ a b c d‖ + 2 * e := by
  have hn : ‖mkQ a b c d‖ ^ 2 = a ^ 2 + b ^ 2 + c ^ 2 + d ^ 2 := by
    rw [norm_mkQ, Real.sq_sqrt (by positivity)]
  have hN := norm_nonneg (mkQ a b c d)
  rw [norm_mkQ]
  generalize ‖mkQ a b c d‖ = N at *
  refine Real.sqrt_le_iff.mpr ⟨by positivity, ?_⟩
  have hs : |a| + |b| + |c| + |d| ≤ 2 * N := by
    refine abs_le_of_sq_le_sq' ?_ (by positivity) |>.2
    rw [mul_pow, hn, ← sq_abs a, ← sq_abs b, ← sq_abs c, ← sq_abs d]
    nlinarith [sq_nonneg (|a| - |b|), sq_nonneg (|a| - |c|), sq_nonneg (|a| - |d|), sq_nonneg (|b| - |c|),
      sq_nonneg (|b| - |d|), sq_nonneg (|c| - |d|)]
  have q : ∀ {t s : ℝ}, |t| ≤ k * |s| + e → t ^ 2 ≤ k ^ 2 * s ^ 2 + 2 * (k * e) * |s| + e ^ 2 := by
    intro t s h
    rw [← sq_abs t, ← sq_abs s]
    calc |t| ^ 2 ≤ (k * |s| + e) ^ 2 := by gcongr
      _ = _ := by ring
  have hke : 0 ≤ k * e := by positivity
  have := mul_le_mul_of_nonneg_left hs (show 0 ≤ 2 * (k * e) by positivity)
  calc w ^ 2 + x ^ 2 + y ^ 2 + z ^ 2 ≤ k ^ 2 * (a ^ 2 + b ^ 2 + c ^ 2 + d ^ 2) +
        2 * (k * e) * (|a| + |b| + |c| + |d|) + 4 * e ^ 2 := by linarith [q hw, q hx, q hy, q hz]
    _ ≤ k ^ 2 * N ^ 2 + 2 * (k * e) * (2 * N) + 4 * e ^ 2 := by rw [hn]; linarith
    _ = _ := by ring

theorem inv_mkQ (a b c d : ℝ) : (mkQ a b c d)⁻¹ = mkQ (a / ‖mkQ a b c d‖ ^ 2) (-b / ‖mkQ a b c d‖ ^ 2)
    (-c / ‖mkQ a b c d‖ ^ 2) (-d / ‖mkQ a b c d‖ ^ 2) := by
  have h : ‖mkQ a b c d‖ ^ 2 = Quaternion.normSq (mkQ a b c d) := by
    rw [sq, Quaternion.normSq_eq_norm_mul_self]
  have hq : (mkQ a b c d)⁻¹ = (Quaternion.normSq (mkQ a b c d))⁻¹ • star (mkQ a b c d) := rfl
  rw [hq, h]
  apply Quaternion.ext <;> simp <;> ring

/-- The reciprocal of the squared norm. -/
theorem recip_acc {r : F} {N : ℝ} (hr : Finite r) (h1 : 1 / 10 ^ 4 ≤ N) (h2 : N ≤ 2 ^ 62)
    (h : |⟪r⟫ - N| ≤ 10 / 2 ^ 24 * N) :
    Finite (lit 1 /ᶠ (r *ᶠ r)) ∧ |⟪(lit 1 : F) /ᶠ (r *ᶠ r)⟫ - 1 / N ^ 2| ≤ 24 / 2 ^ 24 * (1 / N ^ 2) := by
  have hη := rη_pos
  have hN : 0 < N := by linarith [show (0 : ℝ) < 1 / 10 ^ 4 by norm_num]
  have hN2 : 0 < N ^ 2 := by positivity
  have hNl : 1 / 10 ^ 8 ≤ N ^ 2 := by
    calc (1 : ℝ) / 10 ^ 8 = (1 / 10 ^ 4) ^ 2 := by norm_num
      _ ≤ N ^ 2 := by gcongr
  have hNu : N ^ 2 ≤ 2 ^ 124 := by
    calc N ^ 2 ≤ (2 ^ 62) ^ 2 := by gcongr
      _ = _ := by norm_num
  obtain ⟨l, u⟩ := abs_le.mp h
  have hr0 : 0 < ⟪r⟫ := by norm_num at l ⊢; linarith
  have e1 : |⟪r⟫ * ⟪r⟫ - N ^ 2| ≤ 201 / 10 / 2 ^ 24 * N ^ 2 := by
    rw [show ⟪r⟫ * ⟪r⟫ - N ^ 2 = (⟪r⟫ - N) * (⟪r⟫ + N) by ring, abs_mul, abs_of_pos (show 0 < ⟪r⟫ + N by linarith)]
    calc |⟪r⟫ - N| * (⟪r⟫ + N) ≤ 10 / 2 ^ 24 * N * (N + 10 / 2 ^ 24 * N + N) := by gcongr; linarith
      _ = (10 / 2 ^ 24 * (2 + 10 / 2 ^ 24)) * N ^ 2 := by ring
      _ ≤ _ := by gcongr; norm_num
  have e2 := le_of_dist (le_of_eq (abs_of_pos hN2)) e1
  have f1 : Finite (r *ᶠ r) := R.mul_finite hr hr (by norm_num at e2 hNu ⊢; linarith)
  have e3 := (R.mul_near hr hr f1).bound
  have hη2 : rη ≤ 1 / 10 / 2 ^ 24 * N ^ 2 := by
    have := rη_le
    norm_num at this hNl ⊢
    linarith
  have e4 : |⟪r *ᶠ r⟫ - N ^ 2| ≤ 22 / 2 ^ 24 * N ^ 2 := by
    refine (dist_trans e3 e1).trans ?_
    norm_num at e2 hη2 ⊢
    linarith
  obtain ⟨l4, u4⟩ := abs_le.mp e4
  have s0 : 0 < ⟪r *ᶠ r⟫ := by norm_num at l4 ⊢; linarith
  have hI : 0 < 1 / N ^ 2 := by positivity
  have e5 : |1 / ⟪r *ᶠ r⟫ - 1 / N ^ 2| ≤ 221 / 10 / 2 ^ 24 * (1 / N ^ 2) := by
    rw [show 1 / ⟪r *ᶠ r⟫ - 1 / N ^ 2 = (N ^ 2 - ⟪r *ᶠ r⟫) / (⟪r *ᶠ r⟫ * N ^ 2) by field_simp, abs_div, abs_sub_comm,
      abs_of_pos (mul_pos s0 hN2), div_le_iff₀ (mul_pos s0 hN2)]
    rw [show 221 / 10 / 2 ^ 24 * (1 / N ^ 2) * (⟪r *ᶠ r⟫ * N ^ 2) = 221 / 10 / 2 ^ 24 * ⟪r *ᶠ r⟫ by field_simp]
    norm_num at e4 l4 ⊢
    linarith
  have e6 := le_of_dist (le_of_eq (abs_of_pos hI)) e5
  have hIu : 1 / N ^ 2 ≤ 10 ^ 8 := by
    rw [div_le_iff₀ hN2]; norm_num at hNl ⊢; linarith
  have hIl : 1 / 2 ^ 124 ≤ 1 / N ^ 2 := one_div_le_one_div_of_le hN2 hNu
  have f2 : Finite ((lit 1 : F) /ᶠ (r *ᶠ r)) := R.div_finite R.one_finite f1 s0.ne' (by
    rw [R.one_val]
    norm_num at e6 hIu ⊢
    linarith)
  have e7 := (R.div_near R.one_finite f1 s0.ne' f2).bound
  rw [R.one_val] at e7
  refine ⟨f2, (dist_trans e7 e5).trans ?_⟩
  generalize 1 / N ^ 2 = I at *
  have hη3 : rη ≤ 1 / 2 / 2 ^ 24 * I := by
    unfold rη
    norm_num at hIl ⊢
    linarith
  norm_num at e6 hη3 ⊢
  linarith

/-- One component of the inverse. -/
theorem comp_acc {x s : F} {N : ℝ} (hx : Finite x) (hs : Finite s) (h1 : 1 / 10 ^ 4 ≤ N) (hb : |⟪x⟫| ≤ N)
    (h : |⟪s⟫ - 1 / N ^ 2| ≤ 24 / 2 ^ 24 * (1 / N ^ 2)) :
    Finite (x *ᶠ s) ∧ |⟪x *ᶠ s⟫ - ⟪x⟫ / N ^ 2| ≤ 251 / 10 / 2 ^ 24 / N ^ 2 * |⟪x⟫| + rη := by
  have hN : 0 < N := by linarith [show (0 : ℝ) < 1 / 10 ^ 4 by norm_num]
  have hI : 0 < 1 / N ^ 2 := by positivity
  have e1 : |⟪x⟫ * ⟪s⟫ - ⟪x⟫ / N ^ 2| ≤ 24 / 2 ^ 24 * (|⟪x⟫| / N ^ 2) := by
    rw [show ⟪x⟫ * ⟪s⟫ - ⟪x⟫ / N ^ 2 = ⟪x⟫ * (⟪s⟫ - 1 / N ^ 2) by ring, abs_mul]
    calc |⟪x⟫| * |⟪s⟫ - 1 / N ^ 2| ≤ |⟪x⟫| * (24 / 2 ^ 24 * (1 / N ^ 2)) := by gcongr
      _ = _ := by ring
  have e2 : |⟪x⟫ / N ^ 2| = |⟪x⟫| / N ^ 2 := by rw [abs_div, abs_of_pos (show 0 < N ^ 2 by positivity)]
  have e3 := le_of_dist (le_of_eq e2) e1
  have e4 : |⟪x⟫| / N ^ 2 ≤ 10 ^ 4 := by
    rw [div_le_iff₀ (by positivity)]
    refine hb.trans ?_
    norm_num at h1 ⊢
    nlinarith
  have f : Finite (x *ᶠ s) := R.mul_finite hx hs (by norm_num at e3 e4 ⊢; linarith)
  have e5 := (R.mul_near hx hs f).bound
  refine ⟨f, (dist_trans e5 e1).trans ?_⟩
  rw [show 251 / 10 / 2 ^ 24 / N ^ 2 * |⟪x⟫| = 251 / 10 / 2 ^ 24 * (|⟪x⟫| / N ^ 2) by ring]
  have : 0 ≤ |⟪x⟫| / N ^ 2 := by positivity
  norm_num at e3 ⊢
  linarith

theorem quat_comp_le (f : Nat → F) : ∀ i, i < 4 → |⟪f i⟫| ≤ ‖qval f‖ := by
  have h : ‖qval f‖ ^ 2 = ⟪f 0⟫ ^ 2 + ⟪f 1⟫ ^ 2 + ⟪f 2⟫ ^ 2 + ⟪f 3⟫ ^ 2 := by
    unfold qval
    rw [norm_mkQ, Real.sq_sqrt (by positivity)]
  have h0 := sq_nonneg ⟪f 0⟫
  have h1 := sq_nonneg ⟪f 1⟫
  have h2 := sq_nonneg ⟪f 2⟫
  have h3 := sq_nonneg ⟪f 3⟫
  refine forall_lt_four.mpr ⟨?_, ?_, ?_, ?_⟩ <;> refine abs_le_of_sq_le_sq ?_ (norm_nonneg _) <;> rw [h] <;> linarith

/-- The quaternion after `conjugate`. -/
theorem conj_run {a : Vec F} {f : Nat → F} (ha : VecIs a 4 f) (hf : ∀ i, i < 4 → Finite (f i)) :
    ∃ c, Quat.conjugate a = (.ok (), c) ∧
      VecIs c 4 (seq4 (f 0) (Scalar.neg (f 1)) (Scalar.neg (f 2)) (Scalar.neg (f 3))) :=
  Quat.conjugate_stores ha.four (R.neg_finite (hf 1 (by omega))) (R.neg_finite (hf 2 (by omega)))
    (R.neg_finite (hf 3 (by omega)))

/-- C118: `conjugate` is exact in binary32, and so is `conjugate_new`. -/
theorem C118_conjugate {a : Vec F} {f : Nat → F} (ha : VecIs a 4 f) (hf : ∀ i, i < 4 → Finite (f i)) :
    ∃ c g, Quat.conjugate a = (.ok (), c) ∧ Quat.conjugateNew a = .ok c ∧ VecIs c 4 g ∧
      (∀ i, i < 4 → Finite (g i)) ∧ qval g = star (qval f) := by
  obtain ⟨c, e, hc⟩ := conj_run ha hf
  have hf' := forall_lt_four.mp hf
  refine ⟨c, _, e, ?_, hc, forall_lt_four.mpr ⟨hf'.1, R.neg_finite hf'.2.1, R.neg_finite hf'.2.2.1,
    R.neg_finite hf'.2.2.2⟩, ?_⟩
  · obtain ⟨d, e1, hd⟩ := Vec.duplicate_ok ha hf
    obtain ⟨c2, e2, hc2⟩ := conj_run hd hf
    have : c2 = c := hc2.ext4 hc
    unfold Quat.conjugateNew
    rw [e1, Res.ok_bind, exec_ok e2, this]
  · unfold qval
    simp only [seq4]
    rw [R.neg_val hf'.2.1, R.neg_val hf'.2.2.1, R.neg_val hf'.2.2.2]
    apply Quaternion.ext <;> simp

/-- C118: `invert` of a quaternion with a norm from 0.00010001 to `2⁶²` gives the inverse, up to
`26 / 2²⁴` of its norm. -/
theorem C118_invert {a : Vec F} {f : Nat → F} (ha : VecIs a 4 f) (hf : ∀ i, i < 4 → Finite (f i))
    (h1 : 10001 / 10 ^ 8 < ‖qval f‖) (h2 : ‖qval f‖ ≤ 2 ^ 62) :
    ∃ i g, Quat.invert a = (.ok (), i) ∧ VecIs i 4 g ∧ (∀ k, k < 4 → Finite (g k)) ∧
      ‖qval g - (qval f)⁻¹‖ ≤ 26 / 2 ^ 24 * ‖(qval f)⁻¹‖ := by
  obtain ⟨r, e, hr⟩ := norm_cases ha hf
  rw [← norm_qval] at hr
  have hr' : Finite r ∧ ⟪(EPSILON : F)⟫ < ⟪r⟫ ∧ |⟪r⟫ - ‖qval f‖| ≤ 10 / 2 ^ 24 * ‖qval f‖ := by
    rcases hr with ⟨_, h⟩ | ⟨_, _, h⟩ | ⟨h3, h4, _, _, h5⟩
    · exact absurd (h.trans_le h2) (by norm_num)
    · exact absurd (h1.trans_le h) (lt_irrefl _)
    · exact ⟨h3, h4, h5⟩
  obtain ⟨hr1, hr2, hr3⟩ := hr'
  obtain ⟨c, e1, hc⟩ := conj_run ha hf
  have h1' : 1 / 10 ^ 4 ≤ ‖qval f‖ := by norm_num at h1 ⊢; linarith
  obtain ⟨s1, s2⟩ := recip_acc hr1 h1' h2 hr3
  have hb := forall_lt_four.mp (quat_comp_le f)
  have hf' := forall_lt_four.mp hf
  have n1 := R.neg_val hf'.2.1
  have n2 := R.neg_val hf'.2.2.1
  have n3 := R.neg_val hf'.2.2.2
  obtain ⟨g0, k0⟩ := comp_acc hf'.1 s1 h1' hb.1 s2
  obtain ⟨g1, k1⟩ := comp_acc (R.neg_finite hf'.2.1) s1 h1' (by rw [n1, abs_neg]; exact hb.2.1) s2
  obtain ⟨g2, k2⟩ := comp_acc (R.neg_finite hf'.2.2.1) s1 h1' (by rw [n2, abs_neg]; exact hb.2.2.1) s2
  obtain ⟨g3, k3⟩ := comp_acc (R.neg_finite hf'.2.2.2) s1 h1' (by rw [n3, abs_neg]; exact hb.2.2.2) s2
  rw [n1] at k1
  rw [n2] at k2
  rw [n3] at k3
  obtain ⟨i, e2, hi⟩ := Vec.run_of_stores (Vec.mulByScalarInPlace_stores (x := lit 1 /ᶠ (r *ᶠ r)) hc) hc
    (forall_lt_four.mpr ⟨g0, g1, g2, g3⟩)
  refine ⟨i, _, ?_, hi, forall_lt_four.mpr ⟨g0, g1, g2, g3⟩, ?_⟩
  · unfold Quat.invert
    simp only [Op.get_bind, e, Op.liftOk_bind]
    rw [Op.bind_ok e1, if_pos ((R.lt_val eps_fin hr1).mpr hr2), e2]
  · have hη := rη_pos
    have hN : 0 < ‖qval f‖ := by norm_num at h1'; linarith
    have hd := quat_dist (show 0 ≤ 251 / 10 / 2 ^ 24 / ‖qval f‖ ^ 2 by positivity) hη.le k0 k1 k2 k3
    rw [show ‖mkQ ⟪f 0⟫ (-⟪f 1⟫) (-⟪f 2⟫) (-⟪f 3⟫)‖ = ‖qval f‖ by unfold qval; rw [norm_mkQ, norm_mkQ]; simp] at hd
    have hinv : (qval f)⁻¹ = mkQ (⟪f 0⟫ / ‖qval f‖ ^ 2) (-⟪f 1⟫ / ‖qval f‖ ^ 2) (-⟪f 2⟫ / ‖qval f‖ ^ 2)
      (-⟪f 3⟫ / ‖qval f‖ ^ 2) := inv_mkQ ..
    rw [norm_inv]
    refine le_trans (le_of_eq ?_) (hd.trans ?_)
    · congr 1
      rw [hinv]
      unfold qval
      apply Quaternion.ext <;> simp [seq4]
    · rw [show 251 / 10 / 2 ^ 24 / ‖qval f‖ ^ 2 * ‖qval f‖ = 251 / 10 / 2 ^ 24 * ‖qval f‖⁻¹ by field_simp]
      have : (1 : ℝ) / 2 ^ 62 ≤ ‖qval f‖⁻¹ := by rw [one_div]; exact inv_anti₀ hN h2
      unfold rη
      norm_num at this ⊢
      linarith

/-- C118: the products with the computed inverse are 1, up to `51 / 2²⁴`. -/
theorem C118_inverse {a : Vec F} {f : Nat → F} (ha : VecIs a 4 f) (hf : ∀ i, i < 4 → Finite (f i))
    (h1 : 10001 / 10 ^ 8 < ‖qval f‖) (h2 : ‖qval f‖ ≤ 2 ^ 62) :
    ∃ i m m' h h', Quat.invert a = (.ok (), i) ∧ Quat.mulNew a i = .ok m ∧ Quat.mulNew i a = .ok m' ∧
      VecIs m 4 h ∧ VecIs m' 4 h' ∧ ‖qval h - 1‖ ≤ 51 / 2 ^ 24 ∧ ‖qval h' - 1‖ ≤ 51 / 2 ^ 24 := by
  obtain ⟨i, g, e, hi, hg, hd⟩ := C118_invert ha hf h1 h2
  have hN : 0 < ‖qval f‖ := by norm_num at h1; linarith
  have hq : qval f ≠ 0 := norm_pos_iff.mp hN
  have hn : ‖qval f‖ * ‖(qval f)⁻¹‖ = 1 := by rw [norm_inv, mul_inv_cancel₀ hN.ne']
  have hg' : ‖qval g‖ ≤ ‖(qval f)⁻¹‖ + 26 / 2 ^ 24 * ‖(qval f)⁻¹‖ := by
    have := norm_sub_norm_le (qval g) (qval f)⁻¹
    linarith
  have hp : ‖qval f‖ * ‖qval g‖ ≤ 1 + 26 / 2 ^ 24 := by
    calc ‖qval f‖ * ‖qval g‖ ≤ ‖qval f‖ * (‖(qval f)⁻¹‖ + 26 / 2 ^ 24 * ‖(qval f)⁻¹‖) := by gcongr
      _ = (1 + 26 / 2 ^ 24) * (‖qval f‖ * ‖(qval f)⁻¹‖) := by ring
      _ = _ := by rw [hn, mul_one]
  have hdf : ‖qval f‖ * ‖qval g - (qval f)⁻¹‖ ≤ 26 / 2 ^ 24 := by
    calc ‖qval f‖ * ‖qval g - (qval f)⁻¹‖ ≤ ‖qval f‖ * (26 / 2 ^ 24 * ‖(qval f)⁻¹‖) := by gcongr
      _ = 26 / 2 ^ 24 * (‖qval f‖ * ‖(qval f)⁻¹‖) := by ring
      _ = _ := by rw [hn, mul_one]
  obtain ⟨m, h, em, hm, _, dm⟩ := C79_mul ha hi hf hg (hp.trans (by norm_num))
  obtain ⟨m', h', em', hm', _, dm'⟩ := C79_mul hi ha hg hf (by rw [mul_comm]; exact hp.trans (by norm_num))
  refine ⟨i, m, m', h, h', e, em, em', hm, hm', ?_, ?_⟩
  · have k : qval h - 1 = (qval h - qval f * qval g) + qval f * (qval g - (qval f)⁻¹) := by
      rw [mul_sub, mul_inv_cancel₀ hq]; abel
    have k2 := norm_add_le (qval h - qval f * qval g) (qval f * (qval g - (qval f)⁻¹))
    rw [norm_mul] at k2
    rw [k]
    norm_num at k2 dm hdf hp ⊢
    linarith
  · have k : qval h' - 1 = (qval h' - qval g * qval f) + (qval g - (qval f)⁻¹) * qval f := by
      rw [sub_mul, inv_mul_cancel₀ hq]; abel
    have k2 := norm_add_le (qval h' - qval g * qval f) ((qval g - (qval f)⁻¹) * qval f)
    rw [norm_mul (qval g - (qval f)⁻¹), mul_comm ‖qval g - (qval f)⁻¹‖] at k2
    rw [mul_comm ‖qval g‖] at dm'
    rw [k]
    norm_num at k2 dm' hdf hp ⊢
    linarith

/-- C118: below the threshold `invert` returns `Ok` and leaves zeros. -/
theorem C118_invert_small {a : Vec F} {f : Nat → F} (ha : VecIs a 4 f) (hf : ∀ i, i < 4 → Finite (f i))
    (h : ‖qval f‖ < 9999 / 10 ^ 8) :
    ∃ i, Quat.invert a = (.ok (), i) ∧ VecIs i 4 (fun _ => lit 0) := by
  obtain ⟨r, e, hr⟩ := norm_cases ha hf
  rw [← norm_qval] at hr
  have hr' : Finite r ∧ ⟪r⟫ = 0 := by
    rcases hr with ⟨_, h'⟩ | ⟨h3, h4, h'⟩ | ⟨h3, h4, h5, _, _⟩
    · exact absurd (h'.trans h) (by norm_num)
    · exact ⟨h3, h4⟩
    · exact absurd (h5.trans_lt h) (lt_irrefl _)
  obtain ⟨c, e1, hc⟩ := conj_run ha hf
  obtain ⟨i, e2, hi⟩ := Quat.fillq_ok hc (w := lit 0) (x := lit 0) (y := lit 0) (z := lit 0) R.zero_finite R.zero_finite
    R.zero_finite R.zero_finite
  refine ⟨i, ?_, hi.congr (forall_lt_four.mpr ⟨rfl, rfl, rfl, rfl⟩)⟩
  unfold Quat.invert
  simp only [Op.get_bind, e, Op.liftOk_bind]
  have : ¬ (r >ᶠ EPSILON) = true := by
    show ¬ (EPSILON <ᶠ r) = true
    rw [R.lt_val eps_fin hr'.1, hr'.2]
    have := (eps_bounds (F := F)).1
    norm_num at this ⊢
    linarith
  rw [Op.bind_ok e1, if_neg this, e2]

/-- Two more laws of IEEE 754: infinity squared is infinity, and a finite number times zero is zero. -/
class Edges (F : Type) [Scalar F] [Rounded F] : Prop where
  inf_mul : ∀ {x : F}, PosInf x → PosInf (x *ᶠ x)
  mul_zero : ∀ {x y : F}, Finite x → Finite y → ⟪y⟫ = 0 → Finite (x *ᶠ y) ∧ ⟪x *ᶠ y⟫ = 0

instance : Edges F32 where
  inf_mul {x} hx := by
    rw [F32.posInf_iff] at hx ⊢
    subst hx
    rfl
  mul_zero {x y} hx hy h := by
    obtain ⟨x, rfl⟩ := F32.finite_iff.mp hx
    obtain ⟨y, rfl⟩ := F32.finite_iff.mp hy
    have h' : (y : ℝ) = 0 := h
    have hy0 : y = 0 := by exact_mod_cast h'
    subst hy0
    have e : (⟨.fin x⟩ : F32) *ᶠ ⟨.fin 0⟩ = F32.fl (.fin (x * 0)) := rfl
    have k : F32.fl (.fin 0) = ⟨.fin 0⟩ := by decide +kernel
    rw [e, mul_zero, k]
    exact ⟨⟨rfl, rfl⟩, by show F32.toReal _ = 0; simp [F32.toReal_fin]⟩

/-- C118: when the squares overflow, from a norm of about `2⁶⁴` on, `invert` also returns `Ok` and leaves
zeros: the inverse would be of the order of `2⁻⁶⁴`, a normal binary32 number. -/
theorem C118_invert_huge [E : Edges F] {a : Vec F} {f : Nat → F} (ha : VecIs a 4 f) (hf : ∀ i, i < 4 → Finite (f i))
    (h : 1001 / 1000 * 2 ^ 64 < ‖qval f‖) :
    ∃ i g, Quat.invert a = (.ok (), i) ∧ VecIs i 4 g ∧ (∀ k, k < 4 → Finite (g k) ∧ ⟪g k⟫ = 0) := by
  obtain ⟨r, e, hr⟩ := norm_cases ha hf
  rw [← norm_qval] at hr
  have hr' : PosInf r := by
    rcases hr with ⟨h', _⟩ | ⟨h3, h4, h'⟩ | ⟨h3, h4, h5, h6, _⟩
    · exact h'
    · exact absurd (h.trans_le h') (by norm_num)
    · exact absurd (h.trans_le h6) (lt_irrefl _)
  obtain ⟨c, e1, hc⟩ := conj_run ha hf
  obtain ⟨s1, s2⟩ := R.div_inf R.one_finite (E.inf_mul hr')
  have hf' := forall_lt_four.mp hf
  have z0 := E.mul_zero hf'.1 s1 s2
  have z1 := E.mul_zero (R.neg_finite hf'.2.1) s1 s2
  have z2 := E.mul_zero (R.neg_finite hf'.2.2.1) s1 s2
  have z3 := E.mul_zero (R.neg_finite hf'.2.2.2) s1 s2
  obtain ⟨i, e2, hi⟩ := Vec.run_of_stores (Vec.mulByScalarInPlace_stores (x := lit 1 /ᶠ (r *ᶠ r)) hc) hc
    (forall_lt_four.mpr ⟨z0.1, z1.1, z2.1, z3.1⟩)
  refine ⟨i, _, ?_, hi, forall_lt_four.mpr ⟨z0, z1, z2, z3⟩⟩
  unfold Quat.invert
  simp only [Op.get_bind, e, Op.liftOk_bind]
  rw [Op.bind_ok e1, if_pos (R.lt_inf eps_fin hr'), e2]

/-! ### The exponential -/

/-- The test of a component against zero. -/
theorem close_zero {x : F} (hx : Finite x) (hb : |⟪x⟫| ≤ 2 ^ 126) :
    (Close x (lit 0) (EPSILON : F) → |⟪x⟫| ≤ 1001 / 10 ^ 7) ∧ (¬ Close x (lit 0) (EPSILON : F) → 999 / 10 ^ 7 ≤ |⟪x⟫|) := by
  obtain ⟨l, u⟩ := eps_bounds (F := F)
  have z : ⟪x⟫ - ⟪(lit 0 : F)⟫ = ⟪x⟫ := by rw [R.zero_val, sub_zero]
  have f1 : Finite (x -ᶠ lit 0) := R.sub_finite hx R.zero_finite (by rw [z]; exact hb.trans (by norm_num))
  have e1 := (R.sub_near hx R.zero_finite f1).bound
  rw [z] at e1
  have h1 := abs_sub_abs_le_abs_sub ⟪x -ᶠ lit 0⟫ ⟪x⟫
  have h2 := abs_sub_abs_le_abs_sub ⟪x⟫ ⟪x -ᶠ lit 0⟫
  rw [abs_sub_comm ⟪x⟫] at h2
  have hη := rη_le
  unfold Close
  rw [R.le_val (R.abs_finite f1) eps_fin, R.abs_val f1]
  norm_num at hη l u ⊢
  constructor
  · intro h
    linarith
  · intro h
    linarith

theorem isReal_cases {a : Vec F} {f : Nat → F} (ha : VecIs a 4 f) (hf : ∀ i, i < 4 → Finite (f i)) :
    ∃ b, Quat.isReal a = .ok b ∧ (b = true ↔ ∀ i, 1 ≤ i → i < 4 → Close (f i) (lit 0) (EPSILON : F)) := by
  obtain ⟨b, e, hb⟩ := allRange_prop (ε := LinalgError) (lo := 1) (hi := 4)
    (body := fun row => do allcloseL (← a.getElement row) (lit 0) EPSILON)
    (P := fun i => Close (f i) (lit 0) (EPSILON : F)) (by
      intro i _ hi
      rw [ha.get i hi, Res.ok_bind]
      exact allcloseL_prop (hf i hi) R.zero_finite _)
  refine ⟨b, ?_, hb⟩
  unfold Quat.isReal
  rw [Quat.isQuaternion_eq ha, Res.ok_bind]
  simpa using e

theorem isPure_cases {a : Vec F} {f : Nat → F} (ha : VecIs a 4 f) (hf : Finite (f 0)) :
    ∃ b, Quat.isPure a = .ok b ∧ (b = true ↔ Close (f 0) (lit 0) (EPSILON : F)) := by
  obtain ⟨b, e, hb⟩ := allcloseL_prop hf R.zero_finite (EPSILON : F)
  refine ⟨b, ?_, hb⟩
  unfold Quat.isPure
  rw [Quat.isQuaternion_eq ha, Res.ok_bind]
  simp only [decide_true, Bool.not_true, Bool.false_eq_true, if_false, ha.get 0 (by omega), Res.ok_bind, e]
  cases b <;> rfl

/-- One component of the scaled direction. -/
theorem expDir_acc {v s : F} {n S d : ℝ} (hv : Finite v) (hs : Finite s) (h1 : |⟪v⟫ - n| ≤ 1 / 10 ^ 6) (hn : |n| ≤ 1)
    (h2 : |⟪s⟫ - S| ≤ d) (h3 : |⟪s⟫| ≤ 1001 / 1000) :
    Finite (v *ᶠ s) ∧ |⟪v *ᶠ s⟫ - n * S| ≤ d * |n| + 107 / 10 ^ 8 ∧ |⟪v *ᶠ s⟫| ≤ 101 / 100 := by
  have hη := rη_le
  have hv' := le_of_dist hn h1
  have e0 : |⟪v⟫ * ⟪s⟫ - n * S| ≤ d * |n| + 1001 / 1000 / 10 ^ 6 := by
    rw [show ⟪v⟫ * ⟪s⟫ - n * S = n * (⟪s⟫ - S) + (⟪v⟫ - n) * ⟪s⟫ by ring]
    refine (abs_add_le _ _).trans ?_
    rw [abs_mul, abs_mul]
    have a1 := mul_le_mul h1 h3 (abs_nonneg _) (by norm_num)
    have a2 := mul_le_mul_of_nonneg_left h2 (abs_nonneg n)
    norm_num at a1 ⊢
    linarith
  have e1 : |⟪v⟫ * ⟪s⟫| ≤ 1002 / 1000 := by
    rw [abs_mul]
    refine (mul_le_mul hv' h3 (abs_nonneg _) (by norm_num)).trans (by norm_num)
  have f : Finite (v *ᶠ s) := R.mul_finite hv hs (e1.trans (by norm_num))
  have e2 := (R.mul_near hv hs f).bound
  have e3 := le_of_dist e1 e2
  refine ⟨f, (dist_trans e2 e0).trans ?_, ?_⟩ <;> norm_num at e1 e3 hη ⊢ <;> linarith

theorem im_mkQ (w x y z : ℝ) : ‖(mkQ w x y z).im‖ = norm2 3 (seq3 x y z) := (norm_im (mkQ w x y z)).symm

/-- What both functions store first: the exponential of the vector part. -/
theorem exp_first [T : Trig F] {a : Vec F} {f : Nat → F} (ha : VecIs a 4 f) (hf : ∀ i, i < 4 → Finite (f i))
    (h1 : 10001 / 10 ^ 8 < ‖(qval f).im‖) (h2 : ‖(qval f).im‖ ≤ 2 ^ 62) :
    ∃ u r n x y z, Quat.expParts a = .ok (f 0, n, u) ∧ u.getElement 0 = .ok x ∧ u.getElement 1 = .ok y ∧
      u.getElement 2 = .ok z ∧ Quat.fillq (Scalar.cos n) x y z a = (.ok (), r) ∧
      VecIs r 4 (seq4 (Scalar.cos n) x y z) ∧ Finite (Scalar.cos n) ∧ Finite x ∧ Finite y ∧ Finite z ∧
      ‖qval (seq4 (Scalar.cos n) x y z) - NormedSpace.exp (qval f).im‖ ≤ 3 / 10 ^ 6 + 9 / 10 ^ 7 * ‖(qval f).im‖ ∧
      |⟪Scalar.cos n⟫ - Real.cos ‖(qval f).im‖| ≤ 1 / 10 ^ 6 + 6 / 10 ^ 7 * ‖(qval f).im‖ ∧
      (∀ i, i < 4 → |⟪seq4 (Scalar.cos n) x y z i⟫| ≤ 101 / 100) := by
  have hf' := forall_lt_four.mp hf
  obtain ⟨v, e1, hv⟩ := getVectorPart_ok ha.four hf'.2.1 hf'.2.2.1 hf'.2.2.2
  have hvf : ∀ i, i < 3 → Finite (seq3 (f 1) (f 2) (f 3) i) :=
    forall_lt_three.mpr ⟨hf'.2.1, hf'.2.2.1, hf'.2.2.2⟩
  have hN : (norm2 3 fun i => ⟪seq3 (f 1) (f 2) (f 3) i⟫) = ‖(qval f).im‖ := by
    unfold qval
    rw [im_mkQ]
    congr 1
    funext i
    rcases i with _ | _ | _ | i <;> rfl
  obtain ⟨n, e2, hn⟩ := norm_cases hv hvf
  rw [hN] at hn
  have hn' : Finite n ∧ |⟪n⟫ - ‖(qval f).im‖| ≤ 10 / 2 ^ 24 * ‖(qval f).im‖ := by
    rcases hn with ⟨_, h⟩ | ⟨_, _, h⟩ | ⟨h3, h4, _, _, h5⟩
    · exact absurd (h.trans_le h2) (by norm_num)
    · exact absurd (h1.trans_le h) (lt_irrefl _)
    · exact ⟨h3, h5⟩
  obtain ⟨nf, hn2⟩ := hn'
  obtain ⟨w, g, e3, hw, hg, hcase⟩ := C77_normalize hv hvf
  rw [hN] at hcase
  have hdir : ∀ i, i < 3 → |⟪g i⟫ - ⟪seq3 (f 1) (f 2) (f 3) i⟫ / ‖(qval f).im‖| ≤ 1 / 10 ^ 6 := by
    rcases hcase with ⟨_, h | h⟩ | ⟨_, h, _⟩
    · exact absurd (h1.trans_le h) (lt_irrefl _)
    · exact absurd (h.trans_le h2) (by norm_num)
    · exact h
  have hpos : 0 < ‖(qval f).im‖ := by norm_num at h1; linarith
  have hsq : ‖(qval f).im‖ ^ 2 = ⟪f 1⟫ ^ 2 + ⟪f 2⟫ ^ 2 + ⟪f 3⟫ ^ 2 := by
    unfold qval
    rw [sq, ← Quaternion.normSq_eq_norm_mul_self, Quaternion.normSq_def']
    simp
  have hexp : NormedSpace.exp (qval f).im = mkQ (Real.cos ‖(qval f).im‖)
      (⟪f 1⟫ / ‖(qval f).im‖ * Real.sin ‖(qval f).im‖) (⟪f 2⟫ / ‖(qval f).im‖ * Real.sin ‖(qval f).im‖)
      (⟪f 3⟫ / ‖(qval f).im‖ * Real.sin ‖(qval f).im‖) := exp_im (qval f)
  generalize hθ : ‖(qval f).im‖ = θ at *
  have cl : ∀ {t : ℝ}, t ^ 2 ≤ θ ^ 2 → |t / θ| ≤ 1 := by
    intro t ht
    rw [abs_div, abs_of_pos hpos, div_le_one hpos]
    exact abs_le_of_sq_le_sq ht hpos.le
  have q1 := sq_nonneg ⟪f 1⟫
  have q2 := sq_nonneg ⟪f 2⟫
  have q3 := sq_nonneg ⟪f 3⟫
  have c1 : |⟪f 1⟫ / θ| ≤ 1 := cl (by rw [hsq]; linarith)
  have c2 : |⟪f 2⟫ / θ| ≤ 1 := cl (by rw [hsq]; linarith)
  have c3 : |⟪f 3⟫ / θ| ≤ 1 := cl (by rw [hsq]; linarith)
  have hsum : (⟪f 1⟫ / θ) ^ 2 + (⟪f 2⟫ / θ) ^ 2 + (⟪f 3⟫ / θ) ^ 2 = 1 := by
    rw [div_pow, div_pow, div_pow, ← add_div, ← add_div, ← hsq]
    field_simp
  have sinf := T.sin_finite nf
  have cosf := T.cos_finite nf
  have hS : |⟪Scalar.sin n⟫ - Real.sin θ| ≤ 1 / 2 ^ 22 + 10 / 2 ^ 24 * θ := by
    refine dist_trans (T.sin_near nf) (le_trans ?_ hn2)
    exact Real.abs_sin_sub_sin_le _ _
  have hC : |⟪Scalar.cos n⟫ - Real.cos θ| ≤ 1 / 2 ^ 22 + 10 / 2 ^ 24 * θ := by
    refine dist_trans (T.cos_near nf) (le_trans ?_ hn2)
    exact Real.abs_cos_sub_cos_le _ _
  have bS : |⟪Scalar.sin n⟫| ≤ 1001 / 1000 :=
    (le_of_dist (Real.abs_sin_le_one _) (T.sin_near nf)).trans (by norm_num)
  have bC : |⟪Scalar.cos n⟫| ≤ 101 / 100 :=
    (le_of_dist (Real.abs_cos_le_one _) (T.cos_near nf)).trans (by norm_num)
  have hg' := forall_lt_three.mp hg
  have hd' := forall_lt_three.mp hdir
  obtain ⟨x1, x2, x3⟩ := expDir_acc hg'.1 sinf hd'.1 c1 hS bS
  obtain ⟨y1, y2, y3⟩ := expDir_acc hg'.2.1 sinf hd'.2.1 c2 hS bS
  obtain ⟨z1, z2, z3⟩ := expDir_acc hg'.2.2 sinf hd'.2.2 c3 hS bS
  obtain ⟨u, e4, hu⟩ := Vec.exec_of_stores (Vec.mulByScalarInPlace_stores (x := Scalar.sin n) hw) hw
    (forall_lt_three.mpr ⟨x1, y1, z1⟩)
  obtain ⟨r, e5, hr⟩ := Quat.fillq_ok ha (w := Scalar.cos n) cosf x1 y1 z1
  refine ⟨u, r, n, _, _, _, ?_, hu.get 0 (by omega), hu.get 1 (by omega), hu.get 2 (by omega), e5, hr, cosf, x1, y1, z1,
    ?_, ?_, forall_lt_four.mpr ⟨bC, x3, y3, z3⟩⟩
  · unfold Quat.expParts
    simp only [ha.get 0 (by omega), Res.ok_bind, e1, e2, exec_ok e3, e4]
  · have hk : 0 ≤ 1 / 2 ^ 22 + 10 / 2 ^ 24 * θ := by positivity
    have hd := quat_dist (w := ⟪Scalar.cos n⟫ - Real.cos θ) (a := 1) (e := 107 / 10 ^ 8) hk (by norm_num) (by
      rw [abs_one, mul_one]
      exact hC.trans (by linarith [show (0 : ℝ) ≤ 107 / 10 ^ 8 by norm_num])) x2 y2 z2
    have hn1 : ‖mkQ 1 (⟪f 1⟫ / θ) (⟪f 2⟫ / θ) (⟪f 3⟫ / θ)‖ ≤ 1415 / 1000 := by
      rw [norm_mkQ]
      refine Real.sqrt_le_iff.mpr ⟨by norm_num, ?_⟩
      norm_num
      linarith
    have := mul_le_mul_of_nonneg_left hn1 hk
    rw [hexp]
    refine le_trans (le_of_eq ?_) (hd.trans ?_)
    · congr 1
    · simp only [seq3]
      norm_num at this ⊢
      linarith
  · refine hC.trans ?_
    norm_num
    linarith

/-- Scaling by a power of e. -/
theorem scale_acc {r : Vec F} {h : Nat → F} {p : F} (hr : VecIs r 4 h) (hh : ∀ i, i < 4 → Finite (h i))
    (hb : ∀ i, i < 4 → |⟪h i⟫| ≤ 101 / 100) (hp : Finite p) (hp' : |⟪p⟫| ≤ 2 ^ 126) :
    ∃ s g, Vec.mulByScalarInPlace p r = (.ok (), s) ∧ VecIs s 4 g ∧ (∀ i, i < 4 → Finite (g i)) ∧
      ‖qval g - ⟪p⟫ • qval h‖ ≤ |⟪p⟫| / 10 ^ 6 + 1 / 2 ^ 149 := by
  have k : ∀ i, i < 4 → Finite (h i *ᶠ p) ∧ |⟪h i *ᶠ p⟫ - ⟪p⟫ * ⟪h i⟫| ≤ 0 * |0| + (101 / 100 * |⟪p⟫| / 2 ^ 24 + rη) := by
    intro i hi
    have e : |⟪h i⟫ * ⟪p⟫| ≤ 101 / 100 * |⟪p⟫| := by
      rw [abs_mul]
      exact mul_le_mul_of_nonneg_right (hb i hi) (abs_nonneg _)
    have f := R.mul_finite (hh i hi) hp (e.trans (by norm_num at hp' ⊢; linarith))
    refine ⟨f, ?_⟩
    have e2 := (R.mul_near (hh i hi) hp f).bound
    rw [mul_comm ⟪p⟫]
    norm_num at e2 e ⊢
    linarith
  obtain ⟨k0, k1, k2, k3⟩ := forall_lt_four.mp k
  obtain ⟨s, e, hs⟩ := Vec.run_of_stores (Vec.mulByScalarInPlace_stores (x := p) hr) hr fun i hi => (k i hi).1
  refine ⟨s, _, e, hs, fun i hi => (k i hi).1, ?_⟩
  have hη := rη_pos
  have hd := quat_dist le_rfl (by positivity) k0.2 k1.2 k2.2 k3.2
  rw [zero_mul, zero_add] at hd
  refine le_trans (le_of_eq ?_) (hd.trans ?_)
  · congr 1
  · have := abs_nonneg ⟪p⟫
    unfold rη
    norm_num
    linarith

/-- Scaling a quaternion near the exponential of the vector part. -/
theorem scaled_dist {a b c : Quaternion ℝ} {p e : ℝ} (h1 : ‖a - p • b‖ ≤ |p| / 10 ^ 6 + 1 / 2 ^ 149)
    (h2 : ‖b - c‖ ≤ 3 / 10 ^ 6 + e) : ‖a - p • c‖ ≤ |p| * (4 / 10 ^ 6 + e) + 1 / 2 ^ 149 := by
  have k : a - p • c = (a - p • b) + p • (b - c) := by rw [smul_sub]; abel
  have k2 := norm_add_le (a - p • b) (p • (b - c))
  rw [norm_smul, Real.norm_eq_abs, ← k] at k2
  have := mul_le_mul_of_nonneg_left h2 (abs_nonneg p)
  norm_num at this k2 h1 ⊢
  linarith

/-- A component of the vector part is clearly beyond the threshold, and none is too large. -/
def ClearlyNotReal (f : Nat → F) : Prop :=
  (1001 / 10 ^ 7 < |⟪f 1⟫| ∨ 1001 / 10 ^ 7 < |⟪f 2⟫| ∨ 1001 / 10 ^ 7 < |⟪f 3⟫|) ∧ ‖qval f‖ ≤ 2 ^ 62

theorem notReal_im {f : Nat → F} (h : ClearlyNotReal f) : 10001 / 10 ^ 8 < ‖(qval f).im‖ ∧ ‖(qval f).im‖ ≤ 2 ^ 62 := by
  have hsq : ‖(qval f).im‖ ^ 2 = ⟪f 1⟫ ^ 2 + ⟪f 2⟫ ^ 2 + ⟪f 3⟫ ^ 2 := by
    unfold qval
    rw [sq, ← Quaternion.normSq_eq_norm_mul_self, Quaternion.normSq_def']
    simp
  have q1 := sq_nonneg ⟪f 1⟫
  have q2 := sq_nonneg ⟪f 2⟫
  have q3 := sq_nonneg ⟪f 3⟫
  have hall : ‖qval f‖ ^ 2 = ⟪f 0⟫ ^ 2 + ⟪f 1⟫ ^ 2 + ⟪f 2⟫ ^ 2 + ⟪f 3⟫ ^ 2 := by
    unfold qval
    rw [norm_mkQ, Real.sq_sqrt (by positivity)]
  constructor
  · have g : ∀ t : ℝ, 1001 / 10 ^ 7 < |t| → t ^ 2 ≤ ‖(qval f).im‖ ^ 2 → 10001 / 10 ^ 8 < ‖(qval f).im‖ := by
      intro t h1 h2
      have := abs_le_of_sq_le_sq h2 (norm_nonneg _)
      norm_num at h1 ⊢
      linarith
    rcases h.1 with h | h | h
    · exact g _ h (by rw [hsq]; linarith)
    · exact g _ h (by rw [hsq]; linarith)
    · exact g _ h (by rw [hsq]; linarith)
  · refine le_trans ?_ h.2
    refine abs_le_of_sq_le_sq' ?_ (norm_nonneg _) |>.2
    rw [hsq, hall]
    linarith [sq_nonneg ⟪f 0⟫]

theorem notReal_false {a : Vec F} {f : Nat → F} (ha : VecIs a 4 f) (hf : ∀ i, i < 4 → Finite (f i)) (h : ClearlyNotReal f) :
    Quat.isReal a = .ok false := by
  obtain ⟨b, e, hb⟩ := isReal_cases ha hf
  rcases b with _ | _
  · exact e
  · have hall := hb.mp rfl
    have k : ∀ i, 1 ≤ i → i < 4 → |⟪f i⟫| ≤ 1001 / 10 ^ 7 := fun i h1 h4 =>
      (close_zero (hf i h4) (((quat_comp_le f i h4).trans h.2).trans (by norm_num))).1 (hall i h1 h4)
    rcases h.1 with h | h | h
    · exact absurd (h.trans_le (k 1 (by omega) (by omega))) (lt_irrefl _)
    · exact absurd (h.trans_le (k 2 (by omega) (by omega))) (lt_irrefl _)
    · exact absurd (h.trans_le (k 3 (by omega) (by omega))) (lt_irrefl _)

/-- C118: `exp_new` of a quaternion whose vector part is beyond the threshold: the exponential of the vector part,
scaled by what `powf` returned unless the real part is within the threshold of zero.  `powf` only has to return a
finite number. -/
theorem C118_exp_new [T : Trig F] {a : Vec F} {f : Nat → F} (ha : VecIs a 4 f) (hf : ∀ i, i < 4 → Finite (f i))
    (h : ClearlyNotReal f) (hp : Finite (Scalar.pow (E : F) (f 0))) (hp' : |⟪Scalar.pow (E : F) (f 0)⟫| ≤ 2 ^ 126) :
    ∃ r g c, Quat.expNew a = .ok r ∧ VecIs r 4 g ∧ (∀ i, i < 4 → Finite (g i)) ∧
      (c = 1 ∧ |⟪f 0⟫| ≤ 1001 / 10 ^ 7 ∨ c = ⟪Scalar.pow (E : F) (f 0)⟫ ∧ 999 / 10 ^ 7 ≤ |⟪f 0⟫|) ∧
      ‖qval g - c • NormedSpace.exp (qval f).im‖ ≤
        |c| * (4 / 10 ^ 6 + 9 / 10 ^ 7 * ‖(qval f).im‖) + 1 / 2 ^ 149 := by
  obtain ⟨h1, h2⟩ := notReal_im h
  obtain ⟨u, r, n, x, y, z, e1, ex, ey, ez, e2, hr, c1, x1, y1, z1, hd, -, hb⟩ := exp_first ha hf h1 h2
  obtain ⟨d, e3, hd'⟩ := Vec.duplicate_ok ha hf
  obtain rfl : d = a := VecIs.ext4 hd'.four ha.four
  have e4 := notReal_false ha hf h
  obtain ⟨b, e5, hbp⟩ := isPure_cases ha (hf 0 (by omega))
  have hc := close_zero (hf 0 (by omega)) (((quat_comp_le f 0 (by omega)).trans h.2).trans (by norm_num))
  unfold Quat.expNew
  simp only [e3, e4, Res.ok_bind, Bool.false_eq_true, if_false, e1, ex, ey, ez, exec_ok e2, e5]
  rcases b with _ | _
  · have h0 := hc.2 (fun hh => by simpa using hbp.mpr hh)
    obtain ⟨s, g, e6, hs, hg, hdist⟩ := scale_acc hr (forall_lt_four.mpr ⟨c1, x1, y1, z1⟩) hb hp hp'
    refine ⟨s, g, _, ?_, hs, hg, .inr ⟨rfl, h0⟩, scaled_dist hdist hd⟩
    simpa using exec_ok e6
  · refine ⟨r, _, 1, by simp, hr, forall_lt_four.mpr ⟨c1, x1, y1, z1⟩, .inl ⟨rfl, hc.1 (hbp.mp rfl)⟩, ?_⟩
    rw [one_smul, abs_one, one_mul]
    refine hd.trans ?_
    norm_num
    linarith

/-- C118: `exp` is the same, except that the power is left out when the cosine is within the threshold of zero. -/
theorem C118_exp [T : Trig F] {a : Vec F} {f : Nat → F} (ha : VecIs a 4 f) (hf : ∀ i, i < 4 → Finite (f i))
    (h : ClearlyNotReal f) (hp : Finite (Scalar.pow (E : F) (f 0))) (hp' : |⟪Scalar.pow (E : F) (f 0)⟫| ≤ 2 ^ 126) :
    ∃ r g c, Quat.exp a = (.ok (), r) ∧ VecIs r 4 g ∧ (∀ i, i < 4 → Finite (g i)) ∧
      (c = 1 ∧ |Real.cos ‖(qval f).im‖| ≤ 102 / 10 ^ 6 + 6 / 10 ^ 7 * ‖(qval f).im‖ ∨
        c = ⟪Scalar.pow (E : F) (f 0)⟫ ∧ 98 / 10 ^ 6 - 6 / 10 ^ 7 * ‖(qval f).im‖ ≤ |Real.cos ‖(qval f).im‖|) ∧
      ‖qval g - c • NormedSpace.exp (qval f).im‖ ≤
        |c| * (4 / 10 ^ 6 + 9 / 10 ^ 7 * ‖(qval f).im‖) + 1 / 2 ^ 149 := by
  obtain ⟨h1, h2⟩ := notReal_im h
  obtain ⟨u, r, n, x, y, z, e1, ex, ey, ez, e2, hr, c1, x1, y1, z1, hd, hcos, hb⟩ := exp_first ha hf h1 h2
  have e4 := notReal_false ha hf h
  obtain ⟨b, e5, hbp⟩ := isPure_cases hr c1
  have hc := close_zero c1 ((hb 0 (by omega)).trans (by norm_num))
  have t1 := abs_sub_abs_le_abs_sub ⟪Scalar.cos n⟫ (Real.cos ‖(qval f).im‖)
  have t2 := abs_sub_abs_le_abs_sub (Real.cos ‖(qval f).im‖) ⟪Scalar.cos n⟫
  rw [abs_sub_comm (Real.cos _)] at t2
  unfold Quat.exp
  simp only [Op.get_bind, e4, Op.liftOk_bind, Bool.false_eq_true, if_false, e1, ex, ey, ez]
  rw [Op.bind_ok e2]
  simp only [Op.get_bind, e5, Op.liftOk_bind]
  rcases b with _ | _
  · have h0 := hc.2 (fun hh => by simpa using hbp.mpr hh)
    obtain ⟨s, g, e6, hs, hg, hdist⟩ := scale_acc hr (forall_lt_four.mpr ⟨c1, x1, y1, z1⟩) hb hp hp'
    refine ⟨s, g, _, ?_, hs, hg, .inr ⟨rfl, ?_⟩, scaled_dist hdist hd⟩
    · simpa using e6
    · norm_num at h0 hcos ⊢
      linarith
  · have h0 := hc.1 (hbp.mp rfl)
    refine ⟨r, _, 1, rfl, hr, forall_lt_four.mpr ⟨c1, x1, y1, z1⟩, .inl ⟨rfl, ?_⟩, ?_⟩
    · norm_num at h0 hcos ⊢
      linarith
    · rw [one_smul, abs_one, one_mul]
      refine hd.trans ?_
      norm_num
      linarith

/-- C118: on a pure quaternion `exp_new` is the exponential. -/
theorem C118_pure [T : Trig F] {a : Vec F} {f : Nat → F} (ha : VecIs a 4 f) (hf : ∀ i, i < 4 → Finite (f i))
    (h : ClearlyNotReal f) (h0 : ⟪f 0⟫ = 0) (hp : Finite (Scalar.pow (E : F) (f 0)))
    (hp' : |⟪Scalar.pow (E : F) (f 0)⟫| ≤ 2 ^ 126) :
    ∃ r g, Quat.expNew a = .ok r ∧ VecIs r 4 g ∧ (∀ i, i < 4 → Finite (g i)) ∧
      ‖qval g - NormedSpace.exp (qval f)‖ ≤ 5 / 10 ^ 6 + 9 / 10 ^ 7 * ‖qval f‖ := by
  obtain ⟨r, g, c, e, hr, hg, hc, hd⟩ := C118_exp_new ha hf h hp hp'
  have him : (qval f).im = qval f := by
    unfold qval
    apply Quaternion.ext <;> simp [h0]
  have hc1 : c = 1 := by
    rcases hc with hc | hc
    · exact hc.1
    · exact absurd hc.2 (by rw [h0]; norm_num)
  rw [hc1, one_smul, abs_one, one_mul, him] at hd
  refine ⟨r, g, e, hr, hg, hd.trans ?_⟩
  norm_num
  linarith

/-- C118: when no component of the vector part is near the threshold, both functions store 1, whatever the real part. -/
theorem C118_exp_real {a : Vec F} {f : Nat → F} (ha : VecIs a 4 f) (hf : ∀ i, i < 4 → Finite (f i))
    (h : ∀ i, 1 ≤ i → i < 4 → |⟪f i⟫| < 999 / 10 ^ 7) :
    ∃ r, Quat.exp a = (.ok (), r) ∧ Quat.expNew a = .ok r ∧ VecIs r 4 (seq4 (lit 1) (lit 0) (lit 0) (lit 0)) := by
  obtain ⟨b, e, hb⟩ := isReal_cases ha hf
  obtain rfl : b = true := hb.mpr fun i h1 h4 => by
    by_contra hc
    exact absurd ((close_zero (hf i h4) ((h i h1 h4).le.trans (by norm_num))).2 hc) (not_le.mpr (h i h1 h4))
  obtain ⟨r, e2, hr⟩ := Quat.fillq_ok (w := (lit 1 : F)) (x := lit 0) (y := lit 0) (z := lit 0) ha
    R.one_finite R.zero_finite R.zero_finite R.zero_finite
  obtain ⟨d, e3, hd⟩ := Vec.duplicate_ok ha hf
  obtain rfl : d = a := VecIs.ext4 hd.four ha.four
  refine ⟨r, ?_, ?_, hr⟩
  · unfold Quat.exp
    simp only [Op.get_bind, e, Op.liftOk_bind, if_true]
    exact e2
  · unfold Quat.expNew
    simp only [e3, e, Res.ok_bind, if_true]
    exact exec_ok e2

/-- C118: and on a quaternion with a real part, as accurate as `powf`. -/
theorem C118_whole [T : Trig F] {a : Vec F} {f : Nat → F} {k : ℝ} (ha : VecIs a 4 f) (hf : ∀ i, i < 4 → Finite (f i))
    (h : ClearlyNotReal f) (h0 : 1001 / 10 ^ 7 < |⟪f 0⟫|) (hp : Finite (Scalar.pow (E : F) (f 0)))
    (hp' : |⟪Scalar.pow (E : F) (f 0)⟫| ≤ 2 ^ 126)
    (hk : |⟪Scalar.pow (E : F) (f 0)⟫ - Real.exp ⟪f 0⟫| ≤ k * Real.exp ⟪f 0⟫) :
    ∃ r g, Quat.expNew a = .ok r ∧ VecIs r 4 g ∧ (∀ i, i < 4 → Finite (g i)) ∧
      ‖qval g - NormedSpace.exp (qval f)‖ ≤
        ‖NormedSpace.exp (qval f)‖ * ((1 + k) * (4 / 10 ^ 6 + 9 / 10 ^ 7 * ‖(qval f).im‖) + k) + 1 / 2 ^ 149 := by
  obtain ⟨r, g, c, e, hr, hg, hc, hd⟩ := C118_exp_new ha hf h hp hp'
  have hc1 : c = ⟪Scalar.pow (E : F) (f 0)⟫ := by
    rcases hc with hc | hc
    · exact absurd (h0.trans_le hc.2) (lt_irrefl _)
    · exact hc.1
  refine ⟨r, g, e, hr, hg, ?_⟩
  have hre : (qval f).re = ⟪f 0⟫ := rfl
  have hexp : NormedSpace.exp (qval f) = Real.exp ⟪f 0⟫ • NormedSpace.exp (qval f).im := by
    rw [Quaternion.exp_eq, Quaternion.exp_of_re_eq_zero _ (Quaternion.re_im (qval f)), hre, Real.exp_eq_exp_ℝ]
  have hone : ‖NormedSpace.exp (qval f).im‖ = 1 := Quaternion.norm_exp _ |>.trans (by simp [Quaternion.re_im])
  have hE := Real.exp_pos ⟪f 0⟫
  have hnorm : ‖NormedSpace.exp (qval f)‖ = Real.exp ⟪f 0⟫ := by
    rw [hexp, norm_smul, hone, mul_one, Real.norm_eq_abs, abs_of_pos hE]
  rw [hnorm, hexp]
  rw [← hc1] at hk
  generalize Real.exp ⟪f 0⟫ = W at *
  generalize NormedSpace.exp (qval f).im = u at *
  have hc2 := le_of_dist (le_of_eq (abs_of_pos hE)) hk
  have hθ := norm_nonneg (qval f).im
  have hz : 0 ≤ 4 / 10 ^ 6 + 9 / 10 ^ 7 * ‖(qval f).im‖ := by positivity
  have m1 := mul_le_mul_of_nonneg_right hc2 hz
  have k1 : qval g - W • u = (qval g - c • u) + (c - W) • u := by rw [sub_smul]; abel
  have k2 := norm_add_le (qval g - c • u) ((c - W) • u)
  rw [← k1, norm_smul, hone, mul_one, Real.norm_eq_abs] at k2
  generalize 4 / 10 ^ 6 + 9 / 10 ^ 7 * ‖(qval f).im‖ = z at *
  linarith

/-! ### Cases -/

/-- A case: the inverse of (1, 1, 1, 1) is exact; those of 2⁶⁵ and of 2⁻¹⁴ are zero. -/
example : contents 4 (Quat.invert (fvec [1, 1, 1, 1])) = [lit (1 / 4), lit (-1 / 4), lit (-1 / 4), lit (-1 / 4)] ∧
    contents 4 (Quat.invert (fvec [2 ^ 65, 0, 0, 0])) = [lit 0, lit 0, lit 0, lit 0] ∧
    contents 4 (Quat.invert (fvec [1 / 2 ^ 14, 0, 0, 0])) = [lit 0, lit 0, lit 0, lit 0] := by decide +kernel

theorem fvec_is (l : List ℚ) (h : l.length = 4) : VecIs (fvec l) 4 (fun i => (lit (l.getD i 0) : F32)) := by
  have := Vec.of_is (n := 4) (fun i => (lit (l.getD i 0) : F32)) (by decide) (by decide)
  unfold fvec
  rw [h]
  exact this

theorem lit_val (k : ℚ) (hk : F32.fl (.fin k) = ⟨.fin k⟩) : ⟪(lit k : F32)⟫ = (k : ℝ) := by
  show F32.toReal (F32.fl (.fin k)) = _
  rw [hk]
  rfl

theorem qval_1234 : qval (fun i => (lit (([1, 2, 3, 4] : List ℚ).getD i 0) : F32)) = mkQ 1 2 3 4 := by
  unfold qval
  simp only [List.getD_cons_zero, List.getD_cons_succ]
  rw [lit_val 1 (by decide +kernel), lit_val 2 (by decide +kernel), lit_val 3 (by decide +kernel),
    lit_val 4 (by decide +kernel)]
  norm_num

theorem norm_1234 : ‖mkQ (1 : ℝ) 2 3 4‖ = √30 := by rw [norm_mkQ]; norm_num

/-- A case: the inverse of (1, 2, 3, 4) in binary32. -/
example : ∃ i g, Quat.invert (fvec [1, 2, 3, 4]) = (.ok (), i) ∧ VecIs i 4 g ∧
    ‖qval g - (mkQ (1 : ℝ) 2 3 4)⁻¹‖ ≤ 26 / 2 ^ 24 * ‖(mkQ (1 : ℝ) 2 3 4)⁻¹‖ := by
  have h5 : (5 : ℝ) ≤ √30 := Real.le_sqrt_of_sq_le (by norm_num)
  have h6 : √30 ≤ 6 := Real.sqrt_le_iff.mpr ⟨by norm_num, by norm_num⟩
  obtain ⟨i, g, e, hi, -, hd⟩ := C118_invert (fvec_is [1, 2, 3, 4] rfl) (by decide +kernel)
    (by rw [qval_1234, norm_1234]; norm_num at h5 ⊢; linarith) (by rw [qval_1234, norm_1234]; norm_num at h6 ⊢; linarith)
  rw [qval_1234] at hd
  exact ⟨i, g, e, hi, hd⟩

/-- The numbers of `F32T` are those of `F32`. -/
theorem trig_case {l : List ℚ} (hf : ∀ i, i < 4 → Finite (lit (l.getD i 0) : F32)) :
    VecIs (F := F32T) (Vec.of 4 fun i => (lit (l.getD i 0) : F32T)) 4 (fun i => (lit (l.getD i 0) : F32T)) ∧
      ∀ i, i < 4 → Finite (lit (l.getD i 0) : F32T) :=
  ⟨Vec.of_is _ (by decide) (by decide), hf⟩

/-- A case: `exp_new` of the pure quaternion (0, 1, 2, 2) with accurate sines, within 0.000008 of the exponential. -/
example : ∃ r g, Quat.expNew (Vec.of 4 fun i => (lit (([0, 1, 2, 2] : List ℚ).getD i 0) : F32T)) = .ok r ∧
    VecIs r 4 g ∧ ‖qval g - NormedSpace.exp (mkQ (0 : ℝ) 1 2 2)‖ ≤ 8 / 10 ^ 6 := by
  obtain ⟨ha, hf⟩ := trig_case (l := [0, 1, 2, 2]) (by decide +kernel)
  have v : ∀ k : ℚ, F32.fl (.fin k) = ⟨.fin k⟩ → ⟪(lit k : F32T)⟫ = (k : ℝ) := lit_val
  have hq : qval (fun i => (lit (([0, 1, 2, 2] : List ℚ).getD i 0) : F32T)) = mkQ (0 : ℝ) 1 2 2 := by
    unfold qval
    simp only [List.getD_cons_zero, List.getD_cons_succ]
    rw [v 0 (by decide +kernel), v 1 (by decide +kernel), v 2 (by decide +kernel)]
    norm_num
  have hn : ‖mkQ (0 : ℝ) 1 2 2‖ = 3 := by
    rw [norm_mkQ, Real.sqrt_eq_iff_mul_self_eq (by norm_num) (by norm_num)]
    norm_num
  have hpow : Scalar.pow (E : F32T) (lit 0 : F32T) = (lit 1 : F32T) := by
    show Scalar.pow (E : F32) (lit 0 : F32) = (lit 1 : F32)
    decide +kernel
  obtain ⟨r, g, e, hr, -, hd⟩ := C118_pure (F := F32T) ha hf ⟨.inl (by
      simp only [List.getD_cons_zero, List.getD_cons_succ]
      rw [v 1 (by decide +kernel)]
      norm_num), by rw [hq, hn]; norm_num⟩
    (by
      simp only [List.getD_cons_zero]
      rw [v 0 (by decide +kernel)]
      norm_num)
    (by
      simp only [List.getD_cons_zero]
      rw [hpow]
      exact Rounded.one_finite)
    (by
      simp only [List.getD_cons_zero]
      rw [hpow, v 1 (by decide +kernel)]
      norm_num)
  rw [hq, hn] at hd
  refine ⟨r, g, e, hr, hd.trans (by norm_num)⟩

/-- A case: `exp_new` of (1, 1, 2, 2), whose power of e is within 0.0000001 of e. -/
example : ∃ r g, Quat.expNew (Vec.of 4 fun i => (lit (([1, 1, 2, 2] : List ℚ).getD i 0) : F32T)) = .ok r ∧
    VecIs r 4 g ∧ ‖qval g - NormedSpace.exp (mkQ (1 : ℝ) 1 2 2)‖ ≤ ‖NormedSpace.exp (mkQ (1 : ℝ) 1 2 2)‖ * (7 / 10 ^ 6) + 1 / 2 ^ 149 := by
  obtain ⟨ha, hf⟩ := trig_case (l := [1, 1, 2, 2]) (by decide +kernel)
  have v : ∀ k : ℚ, F32.fl (.fin k) = ⟨.fin k⟩ → ⟪(lit k : F32T)⟫ = (k : ℝ) := lit_val
  have hq : qval (fun i => (lit (([1, 1, 2, 2] : List ℚ).getD i 0) : F32T)) = mkQ (1 : ℝ) 1 2 2 := by
    unfold qval
    simp only [List.getD_cons_zero, List.getD_cons_succ]
    rw [v 1 (by decide +kernel), v 2 (by decide +kernel)]
    norm_num
  have hn : ‖mkQ (1 : ℝ) 1 2 2‖ ≤ 4 := by
    rw [norm_mkQ]
    exact Real.sqrt_le_iff.mpr ⟨by norm_num, by norm_num⟩
  have him : ‖(mkQ (1 : ℝ) 1 2 2).im‖ = 3 := by
    rw [im_mkQ, norm2, Real.sqrt_eq_iff_mul_self_eq (by positivity) (by norm_num)]
    simp [Finset.sum_range_succ, seq3]
    norm_num
  have hpow : Scalar.pow (E : F32T) (lit 1 : F32T) = (E : F32T) := by
    show Scalar.pow (E : F32) (lit 1 : F32) = (E : F32)
    decide +kernel
  have hEf : Finite (E : F32T) := by
    show Finite (E : F32)
    decide +kernel
  have hE : |⟪(E : F32T)⟫ - 2718281828459045 / 1000000000000000| ≤ 2 / 10 ^ 7 := by
    have h := ((F32.fl_fin (2718281828459045 / 1000000000000000)).1 hEf).1.bound
    have hη := rη_le
    show |F32.toReal (F32.fl (.fin (2718281828459045 / 1000000000000000))) - _| ≤ _
    push_cast at h
    refine h.trans ?_
    rw [abs_of_pos (by norm_num)]
    norm_num at hη ⊢
    linarith
  have hE1 := Real.exp_one_gt_d9
  have hE2 := Real.exp_one_lt_d9
  obtain ⟨l, u⟩ := abs_le.mp hE
  obtain ⟨r, g, e, hr, -, hd⟩ := C118_whole (F := F32T) (k := 1 / 10 ^ 7) ha hf ⟨.inl (by
      simp only [List.getD_cons_zero, List.getD_cons_succ]
      rw [v 1 (by decide +kernel)]
      norm_num), by rw [hq]; exact hn.trans (by norm_num)⟩
    (by
      simp only [List.getD_cons_zero]
      rw [v 1 (by decide +kernel)]
      norm_num)
    (by
      simp only [List.getD_cons_zero]
      rw [hpow]
      exact hEf)
    (by
      simp only [List.getD_cons_zero]
      rw [hpow, abs_le]
      norm_num at l u ⊢
      constructor <;> linarith)
    (by
      simp only [List.getD_cons_zero]
      rw [hpow, v 1 (by decide +kernel), Rat.cast_one, abs_le]
      norm_num at l u hE1 hE2 ⊢
      constructor <;> linarith)
  rw [hq, him] at hd
  refine ⟨r, g, e, hr, hd.trans ?_⟩
  gcongr
  norm_num

end Verif
