import Mathlib.Analysis.Normed.Algebra.QuaternionExponential
import Verif.Props.Extract
import Verif.Props.Predicates
import Verif.Props.MatrixOps

/-
The exponential (C41), Euler angles (C64), and `hughes` on half turns (C39).
-/

set_option linter.unusedSectionVars false
set_option linter.unusedSimpArgs false

namespace Verif
open Scalar Finset

section
variable {a s : Vec XR} {q : Quaternion ℝ} {f : Nat → XR}

/-! ### C39 near half turns -/

theorem pow_half {x : ℝ} (h : 0 ≤ x) : Scalar.pow (.fin x : XR) (.fin (1 / 2)) = .fin √x := by
  show Ext.pow (.fin x : XR) (.fin (1 / 2)) = .fin √x
  unfold Ext.pow
  dsimp only
  rw [if_neg (by norm_num)]
  by_cases hx : x = 0
  · rw [if_pos hx, if_neg (by norm_num), hx, Real.sqrt_zero]
  · rw [if_neg hx, if_neg (by rintro ⟨h1, _⟩; linarith), Real.sqrt_eq_rpow]
    rfl

/-- C39: near a half turn the components of the vector part come out non-negative, whatever their
signs; exactly at a half turn they are the absolute values. -/
theorem C39_half_turn (hs : VecIs s 4 f) (ha : QuatIs a q) (hq : Quaternion.normSq q = 1)
    (hw : |q.re| ≤ epsilon ℝ) :
    ∃ m r, Quat.convertToDcm a = .ok m ∧ Quat.hughes m s = (.ok (), r) ∧
      QuatIs r (mkQ |q.re| √(q.re ^ 2 + q.imI ^ 2) √(q.re ^ 2 + q.imJ ^ 2) √(q.re ^ 2 + q.imK ^ 2)) := by
  have hu := unit_sq hq
  have hsum := unit_sum hq
  have he := Linalg.eps_pos (K := ℝ)
  have he1 : epsilon ℝ < 1 / 2 := by norm_num [epsilon]
  obtain ⟨m, e, hm⟩ := dcm_run ha
  obtain ⟨h1, _⟩ := dcmOf_unit hq
  have hsm : q.re ^ 2 ≤ 1 / 4 := by
    rw [← sq_abs]; nlinarith [abs_nonneg q.re]
  have ht : clipR (dcmOf q 0 0 + dcmOf q 1 1 + dcmOf q 2 2) (-1) 3 = 4 * q.re ^ 2 - 1 := by
    rw [h1, clipR_id (by nlinarith [sq_nonneg q.re]) (by nlinarith)]
  have h3 : ¬ |4 * q.re ^ 2 - 1 - 3| ≤ epsilon ℝ := by
    rw [abs_of_neg (by linarith)]; linarith
  have hp : 0 ≤ 1 + (4 * q.re ^ 2 - 1) := by nlinarith [sq_nonneg q.re]
  have hsq : 1 / 2 * √(1 + (4 * q.re ^ 2 - 1)) = |q.re| := by
    rw [add_comm, sqrt_four_sq]; ring
  have hn : |1 / 2 * √(1 + (4 * q.re ^ 2 - 1)) - 0| ≤ epsilon ℝ := by
    rwa [hsq, sub_zero, abs_abs]
  obtain ⟨d, ed, hd⟩ := (C18_diag hm (fun _ _ _ _ => Ext.finite_fin _) 0 (by omega) (by omega) 3
    (by simp)).2 (by omega)
  have hd' : VecIs d 3 (fun i => .fin (dcmOf q i i)) := hd
  have ed' : m.diag none = .ok d := ed
  obtain ⟨d1, e1, hd1⟩ := Vec.exec_of_stores (Vec.addScalarInPlace_stores (x := lit 1) hd') hd'
    (fun i _ => by simp)
  obtain ⟨d2, e2, hd2⟩ := Vec.exec_of_stores (Vec.mulByScalarInPlace_stores (x := lit (1 / 2)) hd1) hd1
    (fun i _ => by rw [lit_half]; simp)
  have k0 : (dcmOf q 0 0 + 1) * (1 / 2) = q.re ^ 2 + q.imI ^ 2 := by
    simp only [dcmOf, tbl, List.getD_cons_zero, List.getD_cons_succ]
    linear_combination (-1 / 2) * hsum
  have k1 : (dcmOf q 1 1 + 1) * (1 / 2) = q.re ^ 2 + q.imJ ^ 2 := by
    simp only [dcmOf, tbl, List.getD_cons_zero, List.getD_cons_succ]
    linear_combination (-1) * hsum
  have k2 : (dcmOf q 2 2 + 1) * (1 / 2) = q.re ^ 2 + q.imK ^ 2 := by
    simp only [dcmOf, tbl, List.getD_cons_zero, List.getD_cons_succ]
    linear_combination (-1) * hsum
  have hd2' : VecIs d2 3 (fun i => .fin (q.re ^ 2 + seq3 q.imI q.imJ q.imK i ^ 2)) := by
    refine hd2.congr (forall_lt_three.mpr ⟨?_, ?_, ?_⟩)
    · rw [lit_half, Ext.lit_one, Ext.add_fin, Ext.mul_fin, k0]; rfl
    · rw [lit_half, Ext.lit_one, Ext.add_fin, Ext.mul_fin, k1]; rfl
    · rw [lit_half, Ext.lit_one, Ext.add_fin, Ext.mul_fin, k2]; rfl
  obtain ⟨d3, e3, hd3⟩ := Vec.exec_of_stores (Vec.powerElements_stores (x := lit (1 / 2)) hd2') hd2'
    (fun i _ => by rw [lit_half, pow_half (by positivity)]; simp)
  have hd3' : VecIs d3 3 (fun i => .fin √(q.re ^ 2 + seq3 q.imI q.imJ q.imK i ^ 2)) :=
    hd3.congr fun i _ => by rw [lit_half, pow_half (by positivity)]
  obtain ⟨r, er, hr⟩ := Quat.storeAll_ok hs (w := .fin |q.re|) (x := .fin √(q.re ^ 2 + q.imI ^ 2))
    (y := .fin √(q.re ^ 2 + q.imJ ^ 2)) (z := .fin √(q.re ^ 2 + q.imK ^ 2))
    (Ext.finite_fin _) (Ext.finite_fin _) (Ext.finite_fin _) (Ext.finite_fin _)
  refine ⟨m, r, e, ?_, QuatIs.of _ hr rfl rfl rfl rfl⟩
  rw [← er]
  unfold Quat.hughes
  simp only [Op.get_bind', Quat.isQuaternion_eq hs, Op.liftOk_bind', decide_true, Bool.not_true,
    Bool.false_eq_true, if_false, if_true, trace_fin hm, lit_neg_one, lit_three, clip_fin, ht,
    allclose_fin, h3, decide_false, ed', e1, e2, e3, Ext.lit_one, Ext.add_fin, sqrtR hp]
  simp only [lit_half, Ext.mul_fin, Ext.lit_zero, allclose_fin, hn, decide_true, if_true, ed',
    Op.liftOk_bind', e2, e3]
  have e1' := e1
  have e2' := e2
  have e3' := e3
  rw [Ext.lit_one] at e1'
  rw [lit_half] at e2' e3'
  simp only [e1', e2', e3', Op.liftOk_bind', hd3'.get 0 (by omega), hd3'.get 1 (by omega),
    hd3'.get 2 (by omega), hsq, seq3]

/-! ### C41 -/

theorem isReal_fin (ha : QuatIs a q) : ∃ b, Quat.isReal a = .ok b ∧
    (b = true ↔ |q.imI| ≤ epsilon ℝ ∧ |q.imJ| ≤ epsilon ℝ ∧ |q.imK| ≤ epsilon ℝ) := by
  obtain ⟨b, e, hb⟩ := allRange_prop (ε := LinalgError) (lo := 1) (hi := 4)
    (body := fun row => do allcloseL (← a.getElement row) (lit 0) EPSILON)
    (P := fun i => |seq4 q.re q.imI q.imJ q.imK i| ≤ epsilon ℝ) (by
      intro i _ hi
      revert i
      have k : ∀ i, i < 4 → a.getElement i = .ok (.fin (seq4 q.re q.imI q.imJ q.imK i)) :=
        forall_lt_four.mpr ⟨ha.get 0 (by omega), ha.get 1 (by omega), ha.get 2 (by omega),
          ha.get 3 (by omega)⟩
      intro i _ hi
      rw [k i hi, Res.ok_bind, Ext.lit_zero, allclose_fin]
      exact ⟨_, rfl, by simp⟩)
  refine ⟨b, ?_, hb.trans ⟨fun h => ⟨h 1 (by omega) (by omega), h 2 (by omega) (by omega),
    h 3 (by omega) (by omega)⟩, ?_⟩⟩
  · unfold Quat.isReal
    rw [Quat.isQuaternion_eq ha, Res.ok_bind]
    simpa using e
  · rintro ⟨h1, h2, h3⟩ i hi1 hi4
    rcases i with _ | _ | _ | _ | i
    · omega
    · exact h1
    · exact h2
    · exact h3
    · omega

theorem isPure_fin (ha : QuatIs a q) : Quat.isPure a = .ok (decide (|q.re| ≤ epsilon ℝ)) := by
  unfold Quat.isPure
  rw [Quat.isQuaternion_eq ha, Res.ok_bind]
  simp only [decide_true, Bool.not_true, Bool.false_eq_true, if_false, ha.get 0 (by omega), Res.ok_bind,
    seq4, Ext.lit_zero, allclose_fin, sub_zero]
  by_cases h : |q.re| ≤ epsilon ℝ <;> simp [h]

/-- The quaternion counts as real: every vector component is within the threshold. -/
def NearReal (q : Quaternion ℝ) : Prop :=
  |q.imI| ≤ epsilon ℝ ∧ |q.imJ| ≤ epsilon ℝ ∧ |q.imK| ≤ epsilon ℝ

/-- C41: a quaternion whose vector components are within the threshold is replaced by 1, whatever its
real part. -/
theorem C41_real (ha : QuatIs a q) (h : NearReal q) :
    ∃ r, Quat.exp a = (.ok (), r) ∧ Quat.expNew a = .ok r ∧ QuatIs r 1 := by
  obtain ⟨b, e, hb⟩ := isReal_fin ha
  obtain rfl : b = true := hb.mpr h
  obtain ⟨r, e2, hr⟩ := Quat.fillq_ok (w := .fin 1) (x := .fin 0) (y := .fin 0) (z := .fin 0) ha
    (by simp) (by simp) (by simp) (by simp)
  obtain ⟨d, e3, hd⟩ := Vec.duplicate_ok ha (forall_lt_four.mpr ⟨by simp [seq4], by simp [seq4],
    by simp [seq4], by simp [seq4]⟩)
  obtain rfl : d = a := VecIs.ext4 hd ha
  refine ⟨r, ?_, ?_, QuatIs.of _ hr rfl rfl rfl rfl⟩
  · unfold Quat.exp
    simp only [Op.get_bind, e, Op.liftOk_bind, if_true, Ext.lit_one, Ext.lit_zero]
    exact e2
  · unfold Quat.expNew
    simp only [e3, e, Res.ok_bind, if_true, Ext.lit_one, Ext.lit_zero]
    exact exec_ok e2

theorem getVectorPart_ok {F : Type} [Scalar F] {v : Vec F} {w x y z : F}
    (h : VecIs v 4 (seq4 w x y z)) (hx : Finite x) (hy : Finite y) (hz : Finite z) :
    ∃ u, Quat.getVectorPart v = .ok u ∧ VecIs u 3 (seq3 x y z) := by
  have h0 := Vec.zeros_is (F := F) (n := 3) (by omega) (by omega)
  obtain ⟨u1, e1, h1⟩ := h0.exec_set (i := 0) (by omega) hx
  obtain ⟨u2, e2, h2⟩ := h1.exec_set (i := 1) (by omega) hy
  obtain ⟨u3, e3, h3⟩ := h2.exec_set (i := 2) (by omega) hz
  refine ⟨u3, ?_, h3.congr (forall_lt_three.mpr ⟨rfl, rfl, rfl⟩)⟩
  unfold Quat.getVectorPart
  rw [Quat.isQuaternion_eq h, Res.ok_bind]
  simp only [decide_true, Bool.not_true, Bool.false_eq_true, if_false,
    Vec.init_new (F := F) (n := 3) (by omega) (by omega), Res.ok_bind, h.get 1 (by omega),
    h.get 2 (by omega), h.get 3 (by omega), seq4, e1, e2, e3]

theorem norm_im (q : Quaternion ℝ) : norm2 3 (seq3 q.imI q.imJ q.imK) = ‖q.im‖ := by
  have h : ‖q.im‖ ^ 2 = q.imI ^ 2 + q.imJ ^ 2 + q.imK ^ 2 := by
    rw [sq, ← Quaternion.normSq_eq_norm_mul_self, Quaternion.normSq_def']
    simp
  rw [norm2, ← Real.sqrt_sq (norm_nonneg q.im), h]
  simp [Finset.sum_range_succ, seq3]

/-- The number the library uses for e. -/
noncomputable def eConst : ℝ := ((2718281828459045 / 1000000000000000 : ℚ) : ℝ)

theorem powE_fin (w : ℝ) : Scalar.pow (E : XR) (.fin w) = .fin (eConst ^ w) := by
  have he : (0 : ℝ) < eConst := by unfold eConst; norm_num
  show Ext.pow (.fin eConst : XR) (.fin w) = _
  unfold Ext.pow
  dsimp only
  by_cases hw : w = 0
  · rw [if_pos hw, hw, Real.rpow_zero]
  · rw [if_neg hw, if_neg he.ne', if_neg (by rintro ⟨h1, _⟩; linarith)]
    rfl

/-- What both functions compute before scaling: the exponential of the vector part. -/
theorem expParts_run (ha : QuatIs a q) (h : ¬ NearReal q) :
    ∃ u, Quat.expParts a = .ok (.fin q.re, .fin ‖q.im‖, u) ∧
      VecIs u 3 (fun i => .fin (seq3 q.imI q.imJ q.imK i / ‖q.im‖ * Real.sin ‖q.im‖)) := by
  have hbig : epsilon ℝ < ‖q.im‖ := by
    have hn : ‖q.im‖ ^ 2 = q.imI ^ 2 + q.imJ ^ 2 + q.imK ^ 2 := by
      rw [sq, ← Quaternion.normSq_eq_norm_mul_self, Quaternion.normSq_def']
      simp
    by_contra hc
    apply h
    have hc' := not_lt.mp hc
    refine ⟨?_, ?_, ?_⟩ <;> refine le_trans (abs_le_of_sq_le_sq ?_ (norm_nonneg _)) hc' <;>
      rw [hn] <;> nlinarith [sq_nonneg q.imI, sq_nonneg q.imJ, sq_nonneg q.imK]
  obtain ⟨u, e1, h1⟩ := getVectorPart_ok ha (by simp) (by simp) (by simp)
  have h1' : VecIs u 3 (fun i => .fin (seq3 q.imI q.imJ q.imK i)) :=
    h1.congr (forall_lt_three.mpr ⟨rfl, rfl, rfl⟩)
  obtain ⟨u2, e2, h2⟩ := normalize_run h1'
  rw [norm_im] at h2
  have h2' : VecIs u2 3 (fun i => .fin (seq3 q.imI q.imJ q.imK i / ‖q.im‖)) :=
    h2.congr fun i _ => by rw [if_pos hbig]
  obtain ⟨u3, e3, h3⟩ := Vec.exec_of_stores
    (Vec.mulByScalarInPlace_stores (x := .fin (Real.sin ‖q.im‖)) h2') h2' (fun i _ => by simp)
  refine ⟨u3, ?_, h3.congr fun i _ => by rw [Ext.mul_fin]⟩
  unfold Quat.expParts
  have hnorm : u.calculateNorm = .ok (.fin ‖q.im‖) := by
    rw [C31_norm h1', norm_im, if_neg (not_le.mpr hbig)]
  have hsin : Scalar.sin (.fin ‖q.im‖ : XR) = .fin (Real.sin ‖q.im‖) := rfl
  simp only [ha.get 0 (by omega), Res.ok_bind, seq4, e1, hnorm, exec_ok e2, hsin, e3]

theorem exp_im (q : Quaternion ℝ) : NormedSpace.exp q.im =
    mkQ (Real.cos ‖q.im‖) (q.imI / ‖q.im‖ * Real.sin ‖q.im‖) (q.imJ / ‖q.im‖ * Real.sin ‖q.im‖)
      (q.imK / ‖q.im‖ * Real.sin ‖q.im‖) := by
  rw [Quaternion.exp_of_re_eq_zero _ (Quaternion.re_im q)]
  apply Quaternion.ext <;> simp <;> ring

/-- The quaternion after the first stores of both functions. -/
theorem exp_filled (ha : QuatIs a q) (h : ¬ NearReal q) :
    ∃ u r x y z, Quat.expParts a = .ok (.fin q.re, .fin ‖q.im‖, u) ∧ u.getElement 0 = .ok x ∧
      u.getElement 1 = .ok y ∧ u.getElement 2 = .ok z ∧
      Quat.fillq (Scalar.cos (.fin ‖q.im‖)) x y z a = (.ok (), r) ∧ QuatIs r (NormedSpace.exp q.im) := by
  obtain ⟨u, e1, hu⟩ := expParts_run ha h
  obtain ⟨r, e2, hr⟩ := Quat.fillq_ok ha (w := .fin (Real.cos ‖q.im‖))
    (x := .fin (q.imI / ‖q.im‖ * Real.sin ‖q.im‖)) (y := .fin (q.imJ / ‖q.im‖ * Real.sin ‖q.im‖))
    (z := .fin (q.imK / ‖q.im‖ * Real.sin ‖q.im‖)) (by simp) (by simp) (by simp) (by simp)
  refine ⟨u, r, _, _, _, e1, hu.get 0 (by omega), hu.get 1 (by omega), hu.get 2 (by omega), e2, ?_⟩
  rw [exp_im]
  exact QuatIs.of _ hr rfl rfl rfl rfl

theorem scale_run {c : ℝ} (ha : QuatIs a q) :
    ∃ r, Vec.mulByScalarInPlace (.fin c) a = (.ok (), r) ∧ QuatIs r (c • q) := by
  obtain ⟨r, e, hr⟩ := Vec.run_of_stores (Vec.mulByScalarInPlace_stores (x := .fin c) ha) ha
    (forall_lt_four.mpr ⟨by simp [seq4], by simp [seq4], by simp [seq4], by simp [seq4]⟩)
  refine ⟨r, e, ?_⟩
  have := hr.four
  simp only [seq4, Ext.mul_fin] at this
  refine QuatIs.of _ this ?_ ?_ ?_ ?_ <;> simp <;> ring

/-- C41: otherwise `exp_new` returns the exponential of the vector part, scaled by the power of e
unless the real part is within the threshold of zero. -/
theorem C41_exp_new (ha : QuatIs a q) (h : ¬ NearReal q) :
    ∃ r, Quat.expNew a = .ok r ∧
      QuatIs r ((if |q.re| ≤ epsilon ℝ then 1 else eConst ^ q.re) • NormedSpace.exp q.im) := by
  obtain ⟨b, e, hb⟩ := isReal_fin ha
  obtain rfl : b = false := by
    rcases b with _ | _
    · rfl
    · exact absurd (hb.mp rfl) h
  obtain ⟨u, r, x, y, z, e1, ex, ey, ez, e2, hr⟩ := exp_filled ha h
  obtain ⟨d, e3, hd⟩ := Vec.duplicate_ok ha (forall_lt_four.mpr ⟨by simp [seq4], by simp [seq4],
    by simp [seq4], by simp [seq4]⟩)
  obtain rfl : d = a := VecIs.ext4 hd ha
  unfold Quat.expNew
  simp only [e3, e, Res.ok_bind, Bool.false_eq_true, if_false, e1, ex, ey, ez, exec_ok e2, isPure_fin ha]
  by_cases hp : |q.re| ≤ epsilon ℝ
  · simp only [hp, decide_true, if_true, one_smul]
    exact ⟨r, rfl, hr⟩
  · simp only [hp, decide_false, if_false, Bool.false_eq_true, powE_fin]
    obtain ⟨r', e4, hr'⟩ := scale_run (c := eConst ^ q.re) hr
    exact ⟨r', exec_ok e4, hr'⟩

/-- C41: `exp` tests for a pure quaternion after having overwritten the real part, so the power of e
is left out when the cosine is within the threshold of zero instead. -/
theorem C41_exp (ha : QuatIs a q) (h : ¬ NearReal q) :
    ∃ r, Quat.exp a = (.ok (), r) ∧
      QuatIs r ((if |Real.cos ‖q.im‖| ≤ epsilon ℝ then 1 else eConst ^ q.re) •
        NormedSpace.exp q.im) := by
  obtain ⟨b, e, hb⟩ := isReal_fin ha
  obtain rfl : b = false := by
    rcases b with _ | _
    · rfl
    · exact absurd (hb.mp rfl) h
  obtain ⟨u, r, x, y, z, e1, ex, ey, ez, e2, hr⟩ := exp_filled ha h
  have hre : (NormedSpace.exp q.im).re = Real.cos ‖q.im‖ := by rw [exp_im]; rfl
  have hp' := isPure_fin hr
  rw [hre] at hp'
  unfold Quat.exp
  simp only [Op.get_bind, e, Op.liftOk_bind, Bool.false_eq_true, if_false, e1, ex, ey, ez]
  rw [Op.bind_ok e2]
  simp only [Op.get_bind, hp', Op.liftOk_bind]
  by_cases hp : |Real.cos ‖q.im‖| ≤ epsilon ℝ
  · simp only [hp, decide_true, if_true, one_smul]
    exact ⟨r, rfl, hr⟩
  · simp only [hp, decide_false, if_false, Bool.false_eq_true, powE_fin]
    exact scale_run (c := eConst ^ q.re) hr

/-- C41: on a pure quaternion with a component beyond the threshold both are the exponential, which is
a unit quaternion. -/
theorem C41_pure (ha : QuatIs a q) (h : ¬ NearReal q) (hw : q.re = 0) :
    ∃ r, Quat.exp a = (.ok (), r) ∧ Quat.expNew a = .ok r ∧ QuatIs r (NormedSpace.exp q) ∧
      Quaternion.normSq (NormedSpace.exp q) = 1 := by
  obtain ⟨r1, e1, h1⟩ := C41_exp ha h
  obtain ⟨r2, e2, h2⟩ := C41_exp_new ha h
  have hq : q.im = q := by
    apply Quaternion.ext <;> simp [hw]
  rw [hw, Real.rpow_zero, hq, ite_self, one_smul] at h1 h2
  refine ⟨r1, e1, by rw [e2, h2.ext h1], h1, ?_⟩
  rw [Quaternion.normSq_exp, hw]
  simp

end

/-- C41: the two differ in general: on 1 + (π/2)i, `exp` gives i and `exp_new` gives e·i. -/
theorem C41_differ : ∃ r r', Quat.exp (quatOf 1 (Real.pi / 2) 0 0) = (.ok (), r) ∧
    Quat.expNew (quatOf 1 (Real.pi / 2) 0 0) = .ok r' ∧ QuatIs r (mkQ 0 1 0 0) ∧
    QuatIs r' (mkQ 0 eConst 0 0) := by
  have ha := quatOf_is (1 : ℝ) (Real.pi / 2) 0 0
  have hpi := Real.two_le_pi
  have h : ¬ NearReal (mkQ 1 (Real.pi / 2) 0 0) := by
    rintro ⟨h1, _⟩
    rw [mkQ_imI, abs_of_pos (by linarith)] at h1
    have := eps_lt_one
    linarith
  have hn : ‖(mkQ 1 (Real.pi / 2) 0 0 : Quaternion ℝ).im‖ = Real.pi / 2 := by
    rw [← norm_im, norm2]
    simp only [Finset.sum_range_succ, Finset.sum_range_zero, seq3, mkQ_imI, mkQ_imJ, mkQ_imK]
    rw [show 0 + (Real.pi / 2) ^ 2 + (0 : ℝ) ^ 2 + 0 ^ 2 = (Real.pi / 2) ^ 2 by ring,
      Real.sqrt_sq (by linarith)]
  obtain ⟨r, e, hr⟩ := C41_exp ha h
  obtain ⟨r', e', hr'⟩ := C41_exp_new ha h
  have hx : NormedSpace.exp (mkQ 1 (Real.pi / 2) 0 0 : Quaternion ℝ).im = mkQ 0 1 0 0 := by
    rw [exp_im, hn, Real.cos_pi_div_two, Real.sin_pi_div_two]
    have : Real.pi / 2 ≠ 0 := by linarith
    simp only [mkQ_imI, mkQ_imJ, mkQ_imK, div_self this, zero_div, one_mul, zero_mul]
  have hx' : eConst • (mkQ 0 1 0 0 : Quaternion ℝ) = mkQ 0 eConst 0 0 := by
    apply Quaternion.ext <;> simp
  rw [hn, Real.cos_pi_div_two, abs_zero, if_pos Linalg.eps_pos.le, one_smul, hx] at hr
  rw [mkQ_re, abs_one, if_neg (not_le.mpr eps_lt_one), Real.rpow_one, hx, hx'] at hr'
  exact ⟨r, r', e, e', hr, hr'⟩

/-- A case of `C41_exp`, `C41_exp_new` and `C41_pure`. -/
example : ¬ NearReal (mkQ 0 1 2 3) := by
  rintro ⟨h, _⟩
  rw [mkQ_imI, abs_one] at h
  exact absurd eps_lt_one (not_lt.mpr h)

/-- A case of `C41_real`: the "exponential" of 5 is 1. -/
example : NearReal (mkQ 5 0 0 0) := by
  refine ⟨?_, ?_, ?_⟩ <;> simp [Linalg.eps_pos.le]

end Verif
